import Verif.Mesh.FacialProps
import Verif.Mesh.Nodal
import Verif.Mesh.Lazy

/-!
# Merging disjoint meshes: model (C14)

`merge_disjoint_meshes` (meshmode/mesh/processing.py:874-963).
-/
namespace Meshmode

variable {N P A : Type}

/-- A mesh as seen by the processing functions (meshmode/mesh/__init__.py:1135-1330): ambient
dimension, vertices (or `None`), groups, and conformity and adjacency as in `LazyMesh`.
Data types of identifiers are not modelled. -/
structure FMesh (N P A : Type) where
  ambientDim : Nat
  vertices : Option (List P)
  groups : List (ElGroup N)
  lazy : LazyMesh (List Nat × List Nat) (List (List (Fag A)))

/-- Exceptions of `merge_disjoint_meshes`. Code: meshmode/mesh/processing.py:879-950. -/
inductive MergeErr where
  /-- `ValueError("must pass at least one mesh")` -/
  | empty
  /-- `ValueError("all meshes must share the same ambient dimension")` -/
  | dim
  /-- `ValueError("All meshes must have vertices to perform merge")` -/
  | noVertices
  /-- `ValueError` of `single_valued` -/
  | notSingle
  deriving DecidableEq, Repr

/-- `vert_bases`, meshmode/mesh/processing.py:890-900: the running base numbers. -/
def vertBases (base : Nat) : List Nat → List Nat
  | [] => []
  | n :: rest => base :: vertBases (base + n) rest

/-- `replace(group, vertex_indices=group.vertex_indices + vert_base)`,
meshmode/mesh/processing.py:949-950. -/
def shiftGroup (base : Nat) (g : ElGroup N) : ElGroup N :=
  { g with vertexIndices := g.vertexIndices.map fun row => row.map (· + base) }

/-- `new_groups` without `single_group`, meshmode/mesh/processing.py:945-952. -/
def mergeGroups (gss : List (List (ElGroup N))) (bases : List Nat) : List (ElGroup N) :=
  (gss.zip bases).flatMap fun mb => mb.1.map (shiftGroup mb.2)

/-- `new_groups` with `single_group`, meshmode/mesh/processing.py:916-942.  `single_valued`
compares type, order and unit nodes (here: `kind`) and raises for an empty sequence.
`np.vstack`/`np.hstack` put the groups' elements one after the other. -/
def mergeSingle (gss : List (List (ElGroup N))) (bases : List Nat) :
    Option (List (ElGroup N)) :=
  match gss.flatten with
  | [] => none
  | ref :: rest =>
      if rest.all fun g => g.kind == ref.kind then
        let shifted := mergeGroups gss bases
        some [{ ref with
          vertexIndices := shifted.flatMap ElGroup.vertexIndices
          nodes := shifted.flatMap ElGroup.nodes }]
      else none

/-- `merge_disjoint_meshes`, meshmode/mesh/processing.py:874-963. -/
def mergeDisjoint (ms : List (FMesh N P A)) (single : Bool) : Except MergeErr (FMesh N P A) :=
  match ms with
  | [] => .error .empty
  | m0 :: rest =>
      if rest.any fun m => m.ambientDim != m0.ambientDim then .error .dim
      else match (m0 :: rest).mapM FMesh.vertices with
        | none => .error .noVertices
        | some vss =>
            let bases := vertBases 0 (vss.map List.length)
            let gss := (m0 :: rest).map FMesh.groups
            let nodal := if (m0 :: rest).any fun m => decide (m.lazy.nodal ≠ .missing)
              then Slot.disabled else Slot.missing
            let facial := if (m0 :: rest).any fun m => !(match m.lazy.facial with
                | .missing => true | _ => false)
              then Slot.disabled else Slot.missing
            let groups := if single then mergeSingle gss bases else some (mergeGroups gss bases)
            match groups with
            | none => .error .notSingle
            | some groups => .ok
                { ambientDim := m0.ambientDim
                  vertices := some vss.flatten
                  groups := groups
                  lazy := LazyMesh.make completeFacial true
                    (some ((m0 :: rest).all fun m => m.lazy.conforming == some true))
                    nodal facial }

/-- `mesh.facial_adjacency_groups` (meshmode/mesh/__init__.py:1474-1493). -/
def FMesh.facial (aff0 : A) (m : FMesh N P A) : Access (List (List (Fag A))) :=
  (accessSlot m.lazy.conforming (some (computeFacial aff0 m.groups [] [])) m.lazy.facial).1

/-- `mesh.nodal_adjacency` (meshmode/mesh/__init__.py:1409-1422); see `nodalAdjacency` for
`iter`. -/
def FMesh.nodal (iter : List Nat → List Nat) (m : FMesh N P A) : Access (List Nat × List Nat) :=
  (accessSlot m.lazy.conforming (nodalAdjacency iter ((m.vertices.getD []).length) m.groups)
    m.lazy.nodal).1

/-! ## Specification -/

/-- A usable input: consistent groups, valid vertex numbers, every face has a vertex.
(Specification or proof vocabulary, no code.) -/
structure FMesh.OK (m : FMesh N P A) (vs : List P) : Prop where
  vertices : m.vertices = some vs
  wf : ∀ g ∈ m.groups, g.WF
  valid : ∀ g ∈ m.groups, ∀ row ∈ g.vertexIndices, ∀ v ∈ row, v < vs.length
  faces : ∀ g ∈ m.groups, ∀ ref ∈ g.fvi, ref ≠ []

/-- Number of elements in a mesh. (Specification or proof vocabulary, no code.) -/
def FMesh.size (m : FMesh N P A) : Nat := nelements (m.groups.map ElGroup.nelements)

/-- The merged mesh's element number `E` is element number `e` of input `k`: the elements of the
inputs before `k` come first. (Specification or proof vocabulary, no code.) -/
def MergedElem (ms : List (FMesh N P A)) (k e E : Nat) : Prop :=
  IsGlobalNr (ms.map FMesh.size) k e E

/-- The merged mesh's group number `G` is group `g` of input `k`.
(Specification or proof vocabulary, no code.) -/
def MergedGroup (ms : List (FMesh N P A)) (k g G : Nat) : Prop :=
  IsGlobalNr (ms.map fun m => m.groups.length) k g G

/-- Face `F` of the mesh merged without `single_group` is face `f` of input `k`.
(Specification or proof vocabulary, no code.) -/
def MergedFace (ms : List (FMesh N P A)) (k : Nat) (f F : FaceId) : Prop :=
  MergedGroup ms k f.grp F.grp ∧ F.el = f.el ∧ F.face = f.face

/-- Face `F` of the mesh merged with `single_group` is face `f` of input `k`.
(Specification or proof vocabulary, no code.) -/
def MergedFaceSingle (ms : List (FMesh N P A)) (k : Nat) (f F : FaceId) : Prop :=
  F.grp = 0 ∧ F.face = f.face ∧ ∃ m e, ms[k]? = some m ∧
    IsGlobalNr (m.groups.map ElGroup.nelements) f.grp f.el e ∧ MergedElem ms k e F.el

end Meshmode
