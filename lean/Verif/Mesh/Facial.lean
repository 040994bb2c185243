import Verif.Np
import Verif.Mesh.Types

/-!
# Facial adjacency from vertices: model

`_match_faces_by_vertices`, `_compute_facial_adjacency_from_vertices`,
`_merge_boundary_adjacency_groups`, `_complete_facial_adjacency_groups`
(meshmode/mesh/__init__.py:1695-2000).
-/
namespace Meshmode

variable {N A : Type}

/-- Vertices of a face: `grp.vertex_indices[el, :][ref_fvi]`,
meshmode/mesh/__init__.py:1744-1745 and 1867-1868.  `none` when there is no such face. -/
def faceVerts (groups : List (ElGroup N)) (f : FaceId) : Option (List Nat) := do
  let g ← groups[f.grp]?
  let ref ← g.fvi[f.face]?
  let row ← g.vertexIndices[f.el]?
  ref.mapM (row[·]?)

/-- `max(len(ref_fvi) for grp in groups for ref_fvi in grp.face_vertex_indices())`,
meshmode/mesh/__init__.py:1733-1734 (`0` for no faces, where the code's `max` raises). -/
def maxFaceVertices (groups : List (ElGroup N)) : Nat :=
  ((groups.flatMap ElGroup.fvi).map List.length).foldl max 0

/-- The sorted, `-1`-padded column of `face_vertex_indices` for one face,
meshmode/mesh/__init__.py:1736-1750.  `vmap` is `vertex_index_map_func`. -/
def faceKey (groups : List (ElGroup N)) (vmap : Nat → Nat) (f : FaceId) : List Int :=
  let vs : List Int := ((faceVerts groups f).getD []).map (fun v => (vmap v : Int))
  stableSort (fun a b => decide (a ≤ b))
    (vs ++ List.replicate (maxFaceVertices groups - vs.length) (-1))

/-- `np.lexsort` of the columns `key i`: a stable sort of the column numbers in which the last
row is the primary key, meshmode/mesh/__init__.py:1753. -/
def lexOrder (key : Nat → List Int) (n : Nat) : List Nat :=
  stableSort (fun i j => decide ((key i).reverse ≤ (key j).reverse)) (List.range n)

/-- Consecutive columns without difference, meshmode/mesh/__init__.py:1754-1759. -/
def consecMatches (key : Nat → List Int) : List Nat → List (Nat × Nat)
  | [] => []
  | [_] => []
  | i :: j :: rest =>
      if key i = key j then (i, j) :: consecMatches key (j :: rest)
      else consecMatches key (j :: rest)

/-- `_match_faces_by_vertices`, meshmode/mesh/__init__.py:1695-1759. -/
def matchFaces (groups : List (ElGroup N)) (ids : List FaceId) (vmap : Nat → Nat) :
    List (Nat × Nat) :=
  let key := fun i => (ids[i]?.map (faceKey groups vmap)).getD []
  consecMatches key (lexOrder key ids.length)

/-- The faces of one group, face-major (`np.indices((nfaces, nelements))` flattened),
meshmode/mesh/__init__.py:1786-1791. -/
def groupFaceIds (igrp : Nat) (g : ElGroup N) : List FaceId :=
  (List.range g.nfaces).flatMap fun f => (List.range g.nelements).map fun e => ⟨igrp, e, f⟩

/-- All faces of the mesh, meshmode/mesh/__init__.py:1785-1793. -/
def allFaceIds (groups : List (ElGroup N)) : List FaceId :=
  (groups.zipIdx).flatMap fun p => groupFaceIds p.2 p.1

/-- Lexicographic order on index pairs (`np.lexsort((second, first))`),
meshmode/mesh/__init__.py:1813-1815. -/
def pairLe (p q : Nat × Nat) : Bool := decide (p.1 < q.1 ∨ (p.1 = q.1 ∧ p.2 ≤ q.2))

/-- The pairs both ways, sorted, meshmode/mesh/__init__.py:1803-1816. -/
def pairsBothWays (pairs : List (Nat × Nat)) : List (Nat × Nat) :=
  stableSort pairLe (pairs ++ pairs.map Prod.swap)

/-- `face_id_pairs`, meshmode/mesh/__init__.py:1818-1826. -/
def faceIdPairs (ids : List FaceId) (pairs : List (Nat × Nat)) : List (FaceId × FaceId) :=
  (pairsBothWays pairs).filterMap fun p => do
    let a ← ids[p.1]?
    let b ← ids[p.2]?
    pure (a, b)

/-- The interior adjacency groups of group `igrp`, meshmode/mesh/__init__.py:1838-1852. -/
def interiorGroups (aff0 : A) (fpairs : List (FaceId × FaceId)) (igrp : Nat) : List (Fag A) :=
  let mine := fpairs.filter fun p => p.1.grp == igrp
  (npUnique (mine.map fun p => p.2.grp)).map fun ing =>
    .interior igrp ing
      ((mine.filter fun p => p.2.grp == ing).map fun p => ⟨p.1.el, p.1.face, p.2.el, p.2.face⟩)
      aff0

/-- `np.where(~face_has_neighbor)` for group `igrp`, face-major,
meshmode/mesh/__init__.py:1836,1853-1861. -/
def unmatchedFaces (fpairs : List (FaceId × FaceId)) (igrp : Nat) (g : ElGroup N) : List ElFace :=
  ((groupFaceIds igrp g).filter fun f => !(fpairs.any fun p => p.1 == f)).map
    fun f => ⟨f.el, f.face⟩

/-- Equality of vertex lists as sets (`frozenset` keys).
Code: meshmode/mesh/__init__.py:1762-1901. -/
def sameSet (a b : List Nat) : Bool := a.all (· ∈ b) && b.all (· ∈ a)

/-- `face_vertex_indices_to_tags.get(fvi, None)`, meshmode/mesh/__init__.py:1869, the dict being
an association list whose keys are compared as sets. -/
def lookupTags (dict : List (List Nat × List BTag)) (vs : List Nat) : Option (List BTag) :=
  (dict.find? fun kv => sameSet kv.1 vs).map Prod.snd

/-- `belongs_to_bdry[tag, i]`, meshmode/mesh/__init__.py:1862-1873. -/
def hasTag (groups : List (ElGroup N)) (dict : List (List Nat × List BTag)) (igrp : Nat)
    (t : BTag) (f : ElFace) : Bool :=
  match lookupTags dict ((faceVerts groups ⟨igrp, f.el, f.face⟩).getD []) with
  | some tags => decide (t ∈ tags)
  | none => false

/-- The boundary groups of group `igrp`, meshmode/mesh/__init__.py:1857-1894.  `btags` is the set
`boundary_tags` in the order in which Python happens to iterate over it. -/
def boundaryGroups (groups : List (ElGroup N)) (dict : List (List Nat × List BTag))
    (btags : List BTag) (fpairs : List (FaceId × FaceId)) (igrp : Nat) (g : ElGroup N) :
    List (Fag A) :=
  let bdry := unmatchedFaces fpairs igrp g
  if bdry.isEmpty then [] else
    (btags.filterMap fun t =>
      let fs := bdry.filter (hasTag groups dict igrp t)
      if fs.isEmpty then none else some (.boundary igrp t fs)) ++
    (if bdry.any (fun f => !(btags.any fun t => hasTag groups dict igrp t f))
      then [.boundary igrp .all bdry] else [])

/-- `_merge_boundary_adjacency_groups`, meshmode/mesh/__init__.py:1908-1947, as a function of the
face lists: a table `face_has_adj` of size (max face + 1) × (max element + 1) is filled and read
face-major. -/
def mergeBoundary (fss : List (List ElFace)) : List ElFace :=
  if fss.isEmpty then [] else
    let maxEl := ((fss.map fun fs => (fs.map ElFace.el).foldl max 0)).foldl max 0
    let maxFace := ((fss.map fun fs => (fs.map ElFace.face).foldl max 0)).foldl max 0
    (List.range (maxFace + 1)).flatMap fun f =>
      ((List.range (maxEl + 1)).filter fun e => fss.any fun fs => decide (⟨e, f⟩ ∈ fs)).map
        fun e => ⟨e, f⟩

/-- `_complete_facial_adjacency_groups` for one group, meshmode/mesh/__init__.py:1966-1996. -/
def completeGroup (igrp : Nat) (fags : List (Fag A)) : List (Fag A) :=
  let bdrys := fags.filterMap Fag.bdry?
  let tags := bdrys.map Prod.fst
  fags
  ++ (if BTag.none ∈ tags then [] else [.boundary igrp .none []])
  ++ (if BTag.all ∈ tags then [] else
      [.boundary igrp .all
        (mergeBoundary ((bdrys.filter fun b => isTrueBoundary b.1).map Prod.snd))])
  ++ (if BTag.reallyAll ∈ tags then [] else
      [.boundary igrp .reallyAll (mergeBoundary (bdrys.map Prod.snd))])

/-- `_complete_facial_adjacency_groups`, meshmode/mesh/__init__.py:1950-2000. -/
def completeFacial (fags : List (List (Fag A))) : List (List (Fag A)) :=
  fags.zipIdx.map fun p => completeGroup p.2 p.1

/-- The pairs of neighbouring faces found by `_compute_facial_adjacency_from_vertices`.
Code: meshmode/mesh/__init__.py:1662-1760. -/
def meshFacePairs (groups : List (ElGroup N)) : List (FaceId × FaceId) :=
  let ids := allFaceIds groups
  faceIdPairs ids (matchFaces groups ids id)

/-- `facial_adjacency_groups` before completion, meshmode/mesh/__init__.py:1830-1896. -/
def rawFacial (aff0 : A) (groups : List (ElGroup N)) (dict : List (List Nat × List BTag))
    (btags : List BTag) : List (List (Fag A)) :=
  groups.zipIdx.map fun p =>
    interiorGroups aff0 (meshFacePairs groups) p.2
      ++ boundaryGroups groups dict btags (meshFacePairs groups) p.2 p.1

/-- `_compute_facial_adjacency_from_vertices`, meshmode/mesh/__init__.py:1762-1901.
`aff0` is the default `AffineMap()`; a missing `face_vertex_indices_to_tags` is the empty
dictionary (the code then skips the lookup, with the same effect). -/
def computeFacial (aff0 : A) (groups : List (ElGroup N)) (dict : List (List Nat × List BTag))
    (btags : List BTag) : List (List (Fag A)) :=
  completeFacial (rawFacial aff0 groups dict btags)

end Meshmode
