import Verif.Mesh.Facial
import Verif.Mesh.Numbering

/-!
# Partitioning: model

`partition_mesh` and its helpers (meshmode/mesh/processing.py:101-570).
-/
namespace Meshmode

variable {N P A : Type}

/-- A mesh with vertices (points of type `P`) and available facial adjacency
(meshmode/mesh/__init__.py:1135-1330; identifiers' data types are not modelled). -/
structure MMesh (N P A : Type) where
  vertices : List P
  groups : List (ElGroup N)
  fags : List (List (Fag A))
  deriving DecidableEq, Repr

/-- The group sizes. Code: meshmode/mesh/processing.py:131-160. -/
def MMesh.sizes (m : MMesh N P A) : List Nat := m.groups.map ElGroup.nelements

/-- `mesh.base_element_nrs[g]`; an invalid group number (an `IndexError` in the code) gives `0`,
the theorems assume valid adjacency. Code: meshmode/mesh/processing.py:131-160. -/
def MMesh.baseOf (m : MMesh N P A) (g : Nat) : Nat := ((baseElementNrs m.sizes)[g]?).getD 0

/-- A mapping from part identifiers to element lists, in the dict's order.
Code: meshmode/mesh/processing.py:101-128. -/
abbrev Parts := List (Nat × List Nat)

/-- Exceptions of `_get_mesh_part`. Code: meshmode/mesh/processing.py:480-488. -/
inductive PartErr where
  /-- `IndexError` -/
  | index
  /-- `ValueError("elements cannot belong to multiple parts")` -/
  | multiple
  /-- `ValueError("partition must contain all elements")` -/
  | missing
  /-- `KeyError` for an unknown part identifier -/
  | key
  deriving DecidableEq, Repr

/-- numpy indexing with an index array; `none` is `IndexError`.
Code: meshmode/mesh/processing.py:131-199. -/
def selectRows {α : Type} (l : List α) (idx : List Nat) : Option (List α) := idx.mapM (l[·]?)

/-- Assigning one part's rows of `global_elem_to_part_elem`,
meshmode/mesh/processing.py:124-126. -/
def assignPart (table : List (Option (Nat × Nat))) (pidx : Nat) (elements : List Nat) :
    List (Option (Nat × Nat)) :=
  elements.zipIdx.foldl (fun t ek => t.set ek.1 (some (pidx, ek.2))) table

/-- `_compute_global_elem_to_part_elem`, meshmode/mesh/processing.py:101-128.  `none` is the
uninitialised content of `np.empty`.  The part index is the position in the dict
(meshmode/mesh/processing.py:490-492). -/
def globalElemToPart (nelements : Nat) (parts : Parts) : List (Option (Nat × Nat)) :=
  parts.zipIdx.foldl (fun t p => assignPart t p.2 p.1.2) (List.replicate nelements none)

/-- `group_elem_starts[g]`, meshmode/mesh/processing.py:154-158; `selected` is assumed sorted, as
documented. -/
def groupElemStart (sizes : List Nat) (selected : List Nat) (g : Nat) : Nat :=
  (((baseElementNrs sizes).map (npSearchsorted selected ·) ++ [selected.length])[g]?).getD 0

/-- `filtered_group_elements[g]`, meshmode/mesh/processing.py:160-165. -/
def filteredElements (sizes : List Nat) (selected : List Nat) (g : Nat) : List Nat :=
  let a := groupElemStart sizes selected g
  let b := groupElemStart sizes selected (g + 1)
  ((selected.drop a).take (b - a)).map (· - ((baseElementNrs sizes)[g]?).getD 0)

/-- `_filter_mesh_groups`, meshmode/mesh/processing.py:131-199: the new groups and
`required_vertex_indices`; `none` is `IndexError`.  `np.unique(..., return_inverse=True)` gives for
each entry its position in the sorted array of distinct entries; flattening and reshaping the
index arrays is element-wise and is left out. -/
def filterMeshGroups (m : MMesh N P A) (selected : List Nat) :
    Option (List (ElGroup N) × List Nat) := do
  let rows ← m.groups.zipIdx.mapM fun gi =>
    selectRows gi.1.vertexIndices (filteredElements m.sizes selected gi.2)
  let required := npUnique (rows.flatten.flatten)
  let nodes ← m.groups.zipIdx.mapM fun gi =>
    selectRows gi.1.nodes (filteredElements m.sizes selected gi.2)
  let newGroups := (m.groups.zip (rows.zip nodes)).map fun (g, r, n) =>
    { g with vertexIndices := r.map fun row => row.map (npSearchsorted required ·), nodes := n }
  pure (newGroups, required)

/-- The number of the element `e` (mesh-wide) as (part index, part-wide number); `none` for an
invalid element (`IndexError` in the code; rows referring to invalid elements are dropped here and
excluded in the theorems). Code: meshmode/mesh/processing.py:101-128. -/
def partOf (table : List (Option (Nat × Nat))) (e : Nat) : Option (Nat × Nat) := (table[e]?).join

/-- The part index of the neighbour, if the element is in part `self` and the neighbour is not,
meshmode/mesh/processing.py:236-244. -/
def connectedRow (m : MMesh N P A) (table : List (Option (Nat × Nat))) (self igrp jgrp : Nat)
    (r : AdjRow) : Option Nat := do
  let pk ← partOf table (r.el + m.baseOf igrp)
  let qk ← partOf table (r.nel + m.baseOf jgrp)
  if pk.1 = self ∧ qk.1 ≠ self then some qk.1 else none

/-- `_get_connected_parts`, meshmode/mesh/processing.py:202-252: the parts (id and index, in dict
order) that own the neighbour of an element of part `self`. -/
def connectedParts (m : MMesh N P A) (parts : Parts) (table : List (Option (Nat × Nat)))
    (self : Nat) : List (Nat × Nat) :=
  let connected := m.fags.zipIdx.flatMap fun li => li.1.flatMap fun
    | .interior _ j rows _ => rows.filterMap (connectedRow m table self li.2 j)
    | _ => []
  (parts.zipIdx.map fun pi => (pi.1.1, pi.2)).filter fun pi => decide (pi.2 ∈ connected)

/-- One row of a self-to-self group: kept, with part-local element numbers, if both elements are
in the part, meshmode/mesh/processing.py:292-309. -/
def selfRow (m : MMesh N P A) (table : List (Option (Nat × Nat))) (self : Nat)
    (selfBase : Nat → Nat) (igrp jgrp : Nat) (r : AdjRow) : Option AdjRow := do
  let pk ← partOf table (r.el + m.baseOf igrp)
  let qk ← partOf table (r.nel + m.baseOf jgrp)
  if pk.1 = self ∧ qk.1 = self
  then some ⟨pk.2 - selfBase igrp, r.face, qk.2 - selfBase jgrp, r.nface⟩ else none

/-- One row of a self-to-other group towards part index `qidx`: kept if the element is in the part
and its neighbour in the other; the neighbour is given by its part-wide number,
meshmode/mesh/processing.py:372-390. -/
def otherRow (m : MMesh N P A) (table : List (Option (Nat × Nat))) (self : Nat)
    (selfBase : Nat → Nat) (igrp jgrp qidx : Nat) (r : AdjRow) : Option AdjRow := do
  let pk ← partOf table (r.el + m.baseOf igrp)
  let qk ← partOf table (r.nel + m.baseOf jgrp)
  if pk.1 = self ∧ qk.1 = qidx
  then some ⟨pk.2 - selfBase igrp, r.face, qk.2, r.nface⟩ else none

/-- One face of a boundary group, meshmode/mesh/processing.py:442-450. -/
def bdryRow (m : MMesh N P A) (table : List (Option (Nat × Nat))) (self : Nat)
    (selfBase : Nat → Nat) (igrp : Nat) (f : ElFace) : Option ElFace := do
  let pk ← partOf table (f.el + m.baseOf igrp)
  if pk.1 = self then some ⟨pk.2 - selfBase igrp, f.face⟩ else none

/-- `_create_self_to_self_adjacency_groups` for group `igrp`,
meshmode/mesh/processing.py:255-321. -/
def selfToSelf (m : MMesh N P A) (table : List (Option (Nat × Nat))) (self : Nat)
    (selfBase : Nat → Nat) (igrp : Nat) (l : List (Fag A)) : List (Fag A) :=
  l.filterMap fun
    | .interior _ j rows aff =>
        let rows' := rows.filterMap (selfRow m table self selfBase igrp j)
        if rows'.isEmpty then none else some (.interior igrp j rows' aff)
    | _ => none

/-- `_create_self_to_other_adjacency_groups` for group `igrp`,
meshmode/mesh/processing.py:324-404; `connected` holds (part id, part index). -/
def selfToOther (m : MMesh N P A) (table : List (Option (Nat × Nat))) (self : Nat)
    (selfBase : Nat → Nat) (connected : List (Nat × Nat)) (igrp : Nat) (l : List (Fag A)) :
    List (Fag A) :=
  l.flatMap fun
    | .interior _ j rows aff => connected.filterMap fun q =>
        let rows' := rows.filterMap (otherRow m table self selfBase igrp j q.2)
        if rows'.isEmpty then none
        else some (.interPart igrp (.partition q.1) q.1 rows' aff)
    | _ => []

/-- `_create_boundary_groups` for group `igrp`, meshmode/mesh/processing.py:407-462. -/
def partBoundaryGroups (m : MMesh N P A) (table : List (Option (Nat × Nat))) (self : Nat)
    (selfBase : Nat → Nat) (igrp : Nat) (l : List (Fag A)) : List (Fag A) :=
  (l.filterMap Fag.bdry?).map fun b =>
    .boundary igrp b.1 (b.2.filterMap (bdryRow m table self selfBase igrp))

/-- `self_mesh_group_elem_base[g]`, meshmode/mesh/processing.py:509-513: a running sum. -/
def selfGroupBase (sizes : List Nat) (g : Nat) : Nat := (sizes.take g).sum

/-- `_get_mesh_part`, meshmode/mesh/processing.py:465-546.  The dict's keys are distinct; the
result's adjacency is completed by `make_mesh` (meshmode/mesh/__init__.py:1090-1097). -/
def getMeshPart (m : MMesh N P A) (parts : Parts) (selfId : Nat) :
    Except PartErr (MMesh N P A) :=
  let nel := nelements m.sizes
  let counts := fun e => (parts.filter fun p => decide (e ∈ p.2)).length
  if parts.any fun p => p.2.any fun e => decide (nel ≤ e) then .error .index
  else if (List.range nel).any fun e => decide (1 < counts e) then .error .multiple
  else if (List.range nel).any fun e => decide (counts e < 1) then .error .missing
  else match parts.zipIdx.find? fun pi => pi.1.1 == selfId with
  | none => .error .key
  | some ((_, selected), self) =>
      let table := globalElemToPart nel parts
      match filterMeshGroups m selected with
      | none => .error .index
      | some (newGroups, required) =>
          match selectRows m.vertices required with
          | none => .error .index
          | some vertices =>
              let selfBase := selfGroupBase (newGroups.map ElGroup.nelements)
              let connected := connectedParts m parts table self
              .ok { vertices := vertices, groups := newGroups,
                    fags := completeFacial (m.fags.zipIdx.map fun li =>
                      selfToSelf m table self selfBase li.2 li.1
                      ++ selfToOther m table self selfBase connected li.2 li.1
                      ++ partBoundaryGroups m table self selfBase li.2 li.1) }

/-- `partition_mesh`, meshmode/mesh/processing.py:549-570; `returnParts = none` returns all parts,
in the dict's order; any exception ends the construction. -/
def partitionMesh (m : MMesh N P A) (parts : Parts) (returnParts : Option (List Nat)) :
    Except PartErr (List (Nat × MMesh N P A)) :=
  (returnParts.getD (parts.map Prod.fst)).mapM fun pid => do
    let part ← getMeshPart m parts pid
    pure (pid, part)

end Meshmode
