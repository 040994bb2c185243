/-!
# Mesh data structures

Boundary tags, element groups and facial adjacency groups (meshmode/mesh/__init__.py).
-/
namespace Meshmode

/-- Boundary tags, meshmode/mesh/__init__.py:103-187.  `user i b` is an application's tag number
`i`; `b` says whether it is a class or instance derived from `BTAG_NO_BOUNDARY`.
Part identifiers (any hashable in the code) are naturals here. -/
inductive BTag where
  | none | all | reallyAll | noBoundary
  | partition (partId : Nat)
  | induced
  | user (id : Nat) (isNoBoundary : Bool)
  deriving DecidableEq, Repr

/-- `is_true_boundary`, meshmode/mesh/__init__.py:2118-2124. -/
def isTrueBoundary : BTag → Bool
  | .reallyAll => false
  | .noBoundary => false
  | .partition _ => false
  | .induced => false
  | .user _ nb => !nb
  | .none => true
  | .all => true

/-- A mesh element group, meshmode/mesh/__init__.py:199-326: `vertex_indices` row by row, the
reference `face_vertex_indices()`, and the nodes, one (opaque) entry per element
(`nodes[:, iel, :]`).  `kind` stands for the Python type, dimension, order and unit nodes. -/
structure ElGroup (N : Type) where
  kind : Nat
  fvi : List (List Nat)
  vertexIndices : List (List Nat)
  nodes : List N
  deriving DecidableEq, Repr

namespace ElGroup
variable {N : Type}

/-- `MeshElementGroup.nelements`, meshmode/mesh/__init__.py:270-273 (`nodes.shape[1]`). -/
def nelements (g : ElGroup N) : Nat := g.nodes.length

/-- `MeshElementGroup.nfaces`, meshmode/mesh/__init__.py:260-263. -/
def nfaces (g : ElGroup N) : Nat := g.fvi.length

/-- Shape consistency of a group, assumed by the code: one vertex row per element, and reference
face vertex numbers within each row (a short row would raise `IndexError`).
(Specification or proof vocabulary, no code.) -/
def WF (g : ElGroup N) : Prop :=
  g.vertexIndices.length = g.nodes.length ∧
  ∀ row ∈ g.vertexIndices, ∀ ref ∈ g.fvi, ∀ k ∈ ref, k < row.length

end ElGroup

/-- A face: group, group-relative element, element-relative face
(`_FaceIDs`, meshmode/mesh/__init__.py:1662-1677, entry by entry). -/
structure FaceId where
  grp : Nat
  el : Nat
  face : Nat
  deriving DecidableEq, Repr

/-- An (element, face) pair of a facial adjacency group (`elements[i], element_faces[i]`).
Code: meshmode/mesh/__init__.py:648-701. -/
structure ElFace where
  el : Nat
  face : Nat
  deriving DecidableEq, Repr

/-- Row `i` of an interior or inter-part adjacency group:
`elements[i], element_faces[i], neighbors[i], neighbor_faces[i]`.
Code: meshmode/mesh/__init__.py:568-647. -/
structure AdjRow where
  el : Nat
  face : Nat
  nel : Nat
  nface : Nat
  deriving DecidableEq, Repr

/-- Facial adjacency groups, meshmode/mesh/__init__.py:499-800.  The parallel arrays of the code
(equal lengths are checked in meshmode/mesh/__init__.py:881-926) are kept as one list of rows.  `A` is the type of affine maps. -/
inductive Fag (A : Type) where
  /-- `InteriorAdjacencyGroup`, meshmode/mesh/__init__.py:568-640. -/
  | interior (igroup ineighborGroup : Nat) (rows : List AdjRow) (aff : A)
  /-- `BoundaryAdjacencyGroup`, meshmode/mesh/__init__.py:648-694. -/
  | boundary (igroup : Nat) (tag : BTag) (faces : List ElFace)
  /-- `InterPartAdjacencyGroup` (a subclass of `BoundaryAdjacencyGroup`),
  meshmode/mesh/__init__.py:702-800. -/
  | interPart (igroup : Nat) (tag : BTag) (partId : Nat) (rows : List AdjRow) (aff : A)
  deriving DecidableEq, Repr

/-- `isinstance(fagrp, BoundaryAdjacencyGroup)` together with its tag and faces; inter-part groups
are boundary groups too. Code: meshmode/mesh/__init__.py:648-760. -/
def Fag.bdry? {A : Type} : Fag A → Option (BTag × List ElFace)
  | .interior .. => .none
  | .boundary _ t fs => some (t, fs)
  | .interPart _ t _ rows _ => some (t, rows.map fun r => ⟨r.el, r.face⟩)

/-- Rows of an interior adjacency group; other groups have none.
Code: meshmode/mesh/__init__.py:568-647. -/
def Fag.interiorRows {A : Type} : Fag A → List AdjRow
  | .interior _ _ rows _ => rows
  | _ => []

end Meshmode
