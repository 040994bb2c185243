import Verif.Mesh.Orient

/-!
# Mesh consistency (C56)

`check_mesh_consistency`, `is_mesh_consistent` (meshmode/mesh/__init__.py:805-976) and the test of
nodes against vertices (meshmode/mesh/__init__.py:1535-1606).  The adjacency arrays enter with their
data types and shapes only, as the code looks at nothing else.  Coordinates are elements of an
ordered field: rounding is not modelled.
-/
namespace Meshmode

/-! ## Model -/

/-- What the checks see of an array: its data type and its shape,
meshmode/mesh/__init__.py:844-935. -/
structure ArrHdr where
  dtype : Nat
  shape : List Nat
  deriving DecidableEq, Repr

/-- A facial adjacency group as seen by the checks, meshmode/mesh/__init__.py:568-790: the arrays
`elements`, `element_faces`, `neighbors`, `neighbor_faces`. -/
inductive FagHdr where
  | interior (elements elementFaces neighbors neighborFaces : ArrHdr)
  | boundary (elements elementFaces : ArrHdr)
  | interPart (elements elementFaces neighbors neighborFaces : ArrHdr)
  deriving DecidableEq, Repr

/-- `fagrp.elements`, meshmode/mesh/__init__.py:568-790. -/
def FagHdr.elements : FagHdr → ArrHdr
  | .interior e _ _ _ => e
  | .boundary e _ => e
  | .interPart e _ _ _ => e

/-- `fagrp.element_faces`, meshmode/mesh/__init__.py:568-790. -/
def FagHdr.elementFaces : FagHdr → ArrHdr
  | .interior _ f _ _ => f
  | .boundary _ f => f
  | .interPart _ f _ _ => f

/-- The identifier types of a mesh (`vertex_id_dtype`, `element_id_dtype`, `face_id_dtype`), the data
types of its groups' `vertex_indices` (`none`: the array is `None`), and its adjacency (`none`:
neither given nor computed, or disabled), meshmode/mesh/__init__.py:1135-1330. -/
structure MeshHdr where
  vertexId : Nat
  elementId : Nat
  faceId : Nat
  groupTypes : List (Option Nat)
  nodal : Option (ArrHdr × ArrHdr)
  facial : Option (List (List FagHdr))

/-- Exceptions of `check_mesh_consistency`. Code: meshmode/__init__.py:57-78,
meshmode/mesh/__init__.py:841-955, 1588-1591. -/
inductive CheckErr where
  /-- `InconsistentVerticesError` -/
  | vertices
  /-- `InconsistentArrayDTypeError` -/
  | dtype
  /-- `InconsistentAdjacencyError` -/
  | adjacency
  /-- `InconsistentMeshError("Mesh has negatively oriented elements. …")` -/
  | negative
  /-- `IndexError`, or `ValueError` from arrays that do not fit or an empty maximum -/
  | array
  /-- `ValueError` of `single_valued` in `mesh.dim` -/
  | dim
  /-- another exception of the orientation computation -/
  | orient (e : OrientErr)
  deriving DecidableEq, Repr

/-- Is the exception an instance of `InconsistentMeshError`? meshmode/__init__.py:57-78. -/
def CheckErr.inconsistent : CheckErr → Bool
  | .vertices | .dtype | .adjacency | .negative => true
  | _ => false

/-- `if not c: raise e`, the shape of all checks in meshmode/mesh/__init__.py:841-955. -/
def ensure (c : Bool) (e : CheckErr) : Except CheckErr Unit := if c then .ok () else .error e

/-- A loop of checks, meshmode/mesh/__init__.py:844-852, 886-935, 1600-1606. -/
def checkAll {α : Type} (f : α → Except CheckErr Unit) : List α → Except CheckErr Unit
  | [] => .ok ()
  | a :: l => do f a; checkAll f l

/-- The data types of vertex indices, meshmode/mesh/__init__.py:844-852. -/
def checkTypes (h : MeshHdr) : Except CheckErr Unit :=
  checkAll (fun t => match t with
    | none => .ok ()
    | some t => ensure (t == h.vertexId) .dtype) h.groupTypes

/-- The nodal adjacency `(neighbors_starts, neighbors)`, meshmode/mesh/__init__.py:854-877. -/
def checkNodal (h : MeshHdr) (nelements : Nat) : Except CheckErr Unit :=
  match h.nodal with
  | none => .ok ()
  | some (starts, neighbors) => do
    ensure (starts.shape == [nelements + 1]) .adjacency
    ensure (neighbors.shape.length == 1) .adjacency
    ensure (starts.dtype == h.elementId) .dtype
    ensure (neighbors.dtype == h.elementId) .dtype

/-- One facial adjacency group, meshmode/mesh/__init__.py:888-935. -/
def checkFag (h : MeshHdr) (f : FagHdr) : Except CheckErr Unit := do
  ensure (f.elements.shape.length == 1) .adjacency
  ensure (f.elementFaces.shape == f.elements.shape) .adjacency
  ensure (f.elementFaces.dtype == h.faceId) .dtype
  match f with
  | .interior e _ nb nf => do
    ensure (nb.dtype == h.elementId) .dtype
    ensure (nf.dtype == h.faceId) .dtype
    ensure (nb.shape == e.shape) .adjacency
    ensure (nf.shape == e.shape) .adjacency
  | _ => .ok ()

/-- The facial adjacency, meshmode/mesh/__init__.py:879-935; an empty list counts as absent. -/
def checkFacial (h : MeshHdr) (ngroups : Nat) : Except CheckErr Unit :=
  match h.facial with
  | none => .ok ()
  | some fs =>
    if fs.isEmpty then .ok ()
    else do
      ensure (fs.length == ngroups) .adjacency
      checkAll (checkAll (checkFag h)) fs

section
variable {K : Type} [Field K] [LinearOrder K] {d : Nat}

/-- `np.max`, which raises for an empty array, meshmode/mesh/__init__.py:1571-1579. -/
def npMax : List K → Option K
  | [] => none
  | a :: l => some (l.foldl max a)

/-- `map_vertices` for one element, meshmode/mesh/__init__.py:1543-1550: row `i` of the resampling
matrix `R` gives unit vertex `i` from the nodes. -/
def mapVertices (R : List (List K)) (nds : List (Fin d → K)) : List (Fin d → K) :=
  R.map fun w => fun c => ((w.zip nds).map fun p => p.1 * p.2 c).sum

/-- The absolute values of all coordinates of some vectors, meshmode/mesh/__init__.py:1572, 1579. -/
def absCoords (l : List (Fin d → K)) : List K :=
  l.flatMap fun p => (List.finRange d).map fun c => |p c|

/-- `per_element_vertex_errors` and `coord_scales` for one element,
meshmode/mesh/__init__.py:1535-1555, 1571-1579.  (Broadcasting when there is one vertex is not
modelled: the numbers of vertices must agree.) -/
def elementErrors (R : List (List K)) (vs : List (Fin d → K)) (row : List Nat)
    (nds : List (Fin d → K)) : Option (K × K) :=
  (row.mapM fun v => vs[v]?).bind fun pts =>
    if R.length ≠ pts.length then none
    else
      (npMax (absCoords (List.zipWith (fun a b => a - b) (mapVertices R nds) pts))).bind fun err =>
        (npMax (absCoords pts)).map fun scale => (err, scale)

/-- `_test_group_node_vertex_consistency_resampling`, meshmode/mesh/__init__.py:1558-1591.  (The
number of rows of `vertex_indices` must be the number of elements.  A tolerance `None` stands for a
number that depends on the floating-point type.) -/
def checkGroupNodes (tol : K) (R : List (List K)) (vertices : Option (List (Fin d → K)))
    (g : ElGroup (List (Fin d → K))) : Except CheckErr Unit :=
  match vertices with
  | none => .ok ()
  | some vs =>
    if g.nelements = 0 then .ok ()
    else if g.vertexIndices.length ≠ g.nelements then .error .array
    else match (g.vertexIndices.zip g.nodes).mapM fun p => elementErrors R vs p.1 p.2 with
      | none => .error .array
      | some l => ensure (!(l.any fun x => decide (tol + tol * x.2 ≤ x.1))) .vertices

/-- `_test_node_vertex_consistency`, meshmode/mesh/__init__.py:1594-1606; groups of unsupported type
give a warning only.  `R` is the resampling matrix of a kind of group. -/
def checkNodes {A : Type} (shape : Nat → GShape) (R : Nat → List (List K)) (tol : K)
    (m : FMesh (List (Fin d → K)) (Fin d → K) A) : Except CheckErr Unit :=
  checkAll (fun g => match shape g.kind with
    | .other => .ok ()
    | _ => checkGroupNodes tol (R g.kind) m.vertices g) m.groups

/-- `single_valued(grp.dim for grp in groups)`, meshmode/mesh/__init__.py:1353-1357. -/
def singleValued : List Nat → Option Nat
  | [] => none
  | a :: l => if l.all (· == a) then some a else none

/-- The orientation check, meshmode/mesh/__init__.py:937-955; `dimOf` gives the dimension of a kind of
group.  A mesh that is not a volume mesh gives a warning only. -/
def checkOrient {A : Type} (shape : Nat → GShape) (dimOf : Nat → Nat)
    (m : FMesh (List (Fin d → K)) (Fin d → K) A) : Except CheckErr Unit :=
  match singleValued (m.groups.map fun g => dimOf g.kind) with
  | none => .error .dim
  | some dim =>
    if dim = d then
      match meshOrient shape true m with
      | .error e => .error (.orient e)
      | .ok os => ensure (os.all notBad) .negative
    else .ok ()

/-- The test of nodes unless switched off, meshmode/mesh/__init__.py:841-842; `none` is the argument
`False`. -/
def checkNodesIf {A : Type} (shape : Nat → GShape) (R : Nat → List (List K))
    (m : FMesh (List (Fin d → K)) (Fin d → K) A) : Option K → Except CheckErr Unit
  | none => .ok ()
  | some tol => checkNodes shape R tol m

/-- `check_mesh_consistency`, meshmode/mesh/__init__.py:805-955; `tol = none` is the argument `False`. -/
def checkMesh {A : Type} (shape : Nat → GShape) (dimOf : Nat → Nat) (R : Nat → List (List K))
    (tol : Option K) (skipOrient : Bool) (h : MeshHdr)
    (m : FMesh (List (Fin d → K)) (Fin d → K) A) : Except CheckErr Unit := do
  checkNodesIf shape R m tol
  checkTypes h
  checkNodal h (m.groups.map ElGroup.nelements).sum
  checkFacial h m.groups.length
  if skipOrient then .ok () else checkOrient shape dimOf m

/-- `is_mesh_consistent`, meshmode/mesh/__init__.py:958-976. -/
def isMeshConsistent {A : Type} (shape : Nat → GShape) (dimOf : Nat → Nat) (R : Nat → List (List K))
    (tol : Option K) (skipOrient : Bool) (h : MeshHdr)
    (m : FMesh (List (Fin d → K)) (Fin d → K) A) : Except CheckErr Bool :=
  match checkMesh shape dimOf R tol skipOrient h m with
  | .ok _ => .ok true
  | .error e => if e.inconsistent then .ok false else .error e

end

/-! ## Specification -/

/-- An array has one axis of length `n` and data type `t`. (Specification or proof vocabulary, no code.) -/
def ArrHdr.Is (a : ArrHdr) (n t : Nat) : Prop := a.shape = [n] ∧ a.dtype = t

/-- The nodal adjacency arrays of a mesh with `n` elements have the right shapes and types.
(Specification or proof vocabulary, no code.) -/
def NodalArraysOK (h : MeshHdr) (n : Nat) : Prop := ∀ s nb, h.nodal = some (s, nb) →
  s.Is (n + 1) h.elementId ∧ ∃ k, nb.Is k h.elementId

/-- The arrays of an adjacency group have one common length and the types of the mesh; for interior
groups this includes the neighbours. (Specification or proof vocabulary, no code.) -/
def FagArraysOK (h : MeshHdr) (f : FagHdr) : Prop := ∃ n,
  f.elements.shape = [n] ∧ f.elementFaces.Is n h.faceId ∧
  ∀ e ef nb nf, f = .interior e ef nb nf → nb.Is n h.elementId ∧ nf.Is n h.faceId

/-- Unless facial adjacency is absent or empty, there is one list of adjacency groups for each of the
`n` groups of the mesh, all with fitting arrays. (Specification or proof vocabulary, no code.) -/
def FacialArraysOK (h : MeshHdr) (n : Nat) : Prop := ∀ fs, h.facial = some fs → fs ≠ [] →
  fs.length = n ∧ ∀ l ∈ fs, ∀ f ∈ l, FagArraysOK h f

section spec
variable {K : Type} [Field K] [LinearOrder K] {d : Nat}

/-- `S` is the largest absolute value of a coordinate of the points.
(Specification or proof vocabulary, no code.) -/
def IsLargestCoord (pts : List (Fin d → K)) (S : K) : Prop :=
  (∃ p ∈ pts, ∃ c, |p c| = S) ∧ ∀ p ∈ pts, ∀ c, |p c| ≤ S

/-- Interpolating an element's nodes to unit vertex number `i` gives the point of its vertex number
`i`, each coordinate up to less than `tol * (1 + S)` where `S` is the largest absolute value of a
coordinate of the element's vertices. (Specification or proof vocabulary, no code.) -/
def NodesMatch (tol : K) (R : List (List K)) (vs : List (Fin d → K)) (row : List Nat)
    (nds : List (Fin d → K)) : Prop :=
  ∃ pts S, pts.length = row.length ∧ (∀ (i : Nat) v, row[i]? = some v → pts[i]? = vs[v]?) ∧
    IsLargestCoord pts S ∧
    ∀ (i : Nat) w p, R[i]? = some w → pts[i]? = some p → ∀ c,
      |((w.zip nds).map fun q => q.1 * q.2 c).sum - p c| < tol * (1 + S)

/-- A mesh whose arrays fit together: one row of valid vertex numbers per element, one vertex per row
of the resampling matrix, and equal dimensions. (Specification or proof vocabulary, no code.) -/
structure Checkable {A : Type} (shape : Nat → GShape) (dimOf : Nat → Nat) (R : Nat → List (List K))
    (vs : List (Fin d → K)) (m : FMesh (List (Fin d → K)) (Fin d → K) A) : Prop where
  vertices : m.vertices = some vs
  pos : 0 < d
  dims : ∃ n, m.groups ≠ [] ∧ ∀ g ∈ m.groups, dimOf g.kind = n
  rows : ∀ g ∈ m.groups, g.vertexIndices.length = g.nodes.length
  len : ∀ g ∈ m.groups, shape g.kind ≠ .other → ∀ row ∈ g.vertexIndices,
    row.length = (unitVerts (shape g.kind)).length ∧ (R g.kind).length = row.length ∧ row ≠ []
  valid : ∀ g ∈ m.groups, ∀ row ∈ g.vertexIndices, ∀ v ∈ row, v < vs.length
  corners : ∀ g ∈ m.groups, shape g.kind ≠ .other → dimOf g.kind = d → (shape g.kind).Corners d

/-- What the mesh must satisfy to be accepted. (Specification or proof vocabulary, no code.) -/
structure MeshConsistent {A : Type} (shape : Nat → GShape) (dimOf : Nat → Nat) (R : Nat → List (List K))
    (tol : Option K) (skipOrient : Bool) (h : MeshHdr) (vs : List (Fin d → K))
    (m : FMesh (List (Fin d → K)) (Fin d → K) A) : Prop where
  /-- the nodes of every element of a supported group fit its vertices -/
  nodes : ∀ t, tol = some t → ∀ g ∈ m.groups, shape g.kind ≠ .other →
    ∀ (e : Nat) row nds, g.vertexIndices[e]? = some row → g.nodes[e]? = some nds →
      NodesMatch t (R g.kind) vs row nds
  types : ∀ t, some t ∈ h.groupTypes → t = h.vertexId
  nodal : NodalArraysOK h (m.groups.map ElGroup.nelements).sum
  facial : FacialArraysOK h m.groups.length
  /-- in a volume mesh the orientation of every element of a supported group is positive -/
  orient : skipOrient = false → (∀ g ∈ m.groups, dimOf g.kind = d) →
    ∀ g ∈ m.groups, shape g.kind ≠ .other → ∀ row ∈ g.vertexIndices,
      ∃ o, elemOrient vs (unitVerts (shape g.kind)) row = some o ∧ 0 < o

end spec

/-! ## Sequences of checks -/

theorem ensure_ok {c : Bool} {e : CheckErr} : ensure c e = .ok () ↔ c = true := by
  unfold ensure; split <;> simp_all

theorem bind_ok {x y : Except CheckErr Unit} :
    (x >>= fun _ => y) = .ok () ↔ x = .ok () ∧ y = .ok () := by
  cases x with
  | error e => simp [bind, Except.bind]
  | ok u => simp [bind, Except.bind]

theorem checkAll_ok {α : Type} {f : α → Except CheckErr Unit} {l : List α} :
    checkAll f l = .ok () ↔ ∀ a ∈ l, f a = .ok () := by
  induction l with
  | nil => simp [checkAll]
  | cons a l ih => rw [checkAll, bind_ok, ih, List.forall_mem_cons]

/-- The exceptions are instances of `InconsistentMeshError`.
(Specification or proof vocabulary, no code.) -/
def OnlyInconsistent (x : Except CheckErr Unit) : Prop :=
  ∀ e, x = .error e → e.inconsistent = true

theorem onlyInc_ok : OnlyInconsistent (.ok ()) := by intro e h; simp at h

theorem onlyInc_ensure {c : Bool} {e : CheckErr} (h : e.inconsistent = true) :
    OnlyInconsistent (ensure c e) := by
  intro e' h'
  unfold ensure at h'
  split at h'
  · simp at h'
  · rw [Except.error.injEq] at h'; exact h' ▸ h

theorem onlyInc_bind {x y : Except CheckErr Unit} (hx : OnlyInconsistent x)
    (hy : OnlyInconsistent y) : OnlyInconsistent (x >>= fun _ => y) := by
  intro e h
  cases x with
  | error e' => exact hx e (by simpa [bind, Except.bind] using h)
  | ok u => exact hy e (by simpa [bind, Except.bind] using h)

theorem onlyInc_all {α : Type} {f : α → Except CheckErr Unit} {l : List α}
    (h : ∀ a ∈ l, OnlyInconsistent (f a)) : OnlyInconsistent (checkAll f l) := by
  induction l with
  | nil => exact onlyInc_ok
  | cons a l ih =>
    exact onlyInc_bind (h a List.mem_cons_self) (ih fun x hx => h x (List.mem_cons_of_mem _ hx))

/-- The exception is not `InconsistentVerticesError`. (Specification or proof vocabulary, no code.) -/
def NotVertices (x : Except CheckErr Unit) : Prop := x ≠ .error .vertices

theorem notVert_ok : NotVertices (.ok ()) := by simp [NotVertices]

theorem notVert_ensure {c : Bool} {e : CheckErr} (h : e ≠ .vertices) : NotVertices (ensure c e) := by
  unfold ensure NotVertices
  split
  · simp
  · simpa using h

theorem notVert_bind {x y : Except CheckErr Unit} (hx : NotVertices x) (hy : NotVertices y) :
    NotVertices (x >>= fun _ => y) := by
  cases x with
  | error e => exact hx
  | ok u => exact hy

theorem notVert_all {α : Type} {f : α → Except CheckErr Unit} {l : List α}
    (h : ∀ a, NotVertices (f a)) : NotVertices (checkAll f l) := by
  induction l with
  | nil => exact notVert_ok
  | cons a l ih => exact notVert_bind (h a) ih

theorem checkAll_error {α : Type} {f : α → Except CheckErr Unit} {l : List α} {e : CheckErr}
    (h : checkAll f l = .error e) : ∃ a ∈ l, f a = .error e := by
  induction l with
  | nil => simp [checkAll] at h
  | cons a l ih =>
    rw [checkAll] at h
    cases hf : f a with
    | error e' =>
      rw [hf] at h
      exact ⟨a, List.mem_cons_self, hf.trans h⟩
    | ok u =>
      rw [hf] at h
      obtain ⟨b, hb, hb'⟩ := ih h
      exact ⟨b, List.mem_cons_of_mem _ hb, hb'⟩

/-! ## The header checks -/

theorem checkTypes_ok {h : MeshHdr} :
    checkTypes h = .ok () ↔ ∀ t, some t ∈ h.groupTypes → t = h.vertexId := by
  rw [checkTypes, checkAll_ok]
  constructor
  · intro H t ht
    have := H _ ht
    simpa [ensure_ok] using this
  · intro H a ha
    cases a with
    | none => rfl
    | some t => simpa [ensure_ok] using H t ha

theorem checkNodal_ok {h : MeshHdr} {n : Nat} : checkNodal h n = .ok () ↔ NodalArraysOK h n := by
  unfold checkNodal NodalArraysOK
  split
  · rename_i heq; simp [heq]
  · rename_i s nb heq
    simp only [bind_ok, ensure_ok, heq, Option.some.injEq, Prod.mk.injEq, and_imp, beq_iff_eq, ArrHdr.Is, List.length_eq_one_iff]
    constructor
    · rintro ⟨h1, ⟨k, h2⟩, h3, h4⟩
      rintro _ _ rfl rfl
      exact ⟨⟨h1, h3⟩, k, h2, h4⟩
    · intro H
      obtain ⟨⟨h1, h3⟩, k, h2, h4⟩ := H _ _ rfl rfl
      exact ⟨h1, ⟨k, h2⟩, h3, h4⟩

theorem checkFag_ok {h : MeshHdr} {f : FagHdr} : checkFag h f = .ok () ↔ FagArraysOK h f := by
  unfold checkFag FagArraysOK
  cases f with
  | interior e ef nb nf =>
    simp only [bind_ok, ensure_ok, beq_iff_eq, ArrHdr.Is, FagHdr.elements, FagHdr.elementFaces,
      List.length_eq_one_iff, FagHdr.interior.injEq]
    constructor
    · rintro ⟨⟨n, h1⟩, h2, h3, h4, h5, h6, h7⟩
      rw [h1] at h2 h6 h7
      exact ⟨n, h1, ⟨h2, h3⟩, by rintro _ _ _ _ ⟨rfl, rfl, rfl, rfl⟩; exact ⟨⟨h6, h4⟩, h7, h5⟩⟩
    · rintro ⟨n, h1, ⟨h2, h3⟩, h4⟩
      obtain ⟨⟨h6, h4⟩, h7, h5⟩ := h4 e ef nb nf ⟨rfl, rfl, rfl, rfl⟩
      exact ⟨⟨n, h1⟩, by rw [h2, h1], h3, h4, h5, by rw [h6, h1], by rw [h7, h1]⟩
  | boundary e ef =>
    simp only [bind_ok, ensure_ok, beq_iff_eq, ArrHdr.Is, FagHdr.elements, FagHdr.elementFaces,
      List.length_eq_one_iff, reduceCtorEq, false_imp_iff, implies_true, and_true]
    constructor
    · rintro ⟨⟨n, h1⟩, h2, h3⟩; exact ⟨n, h1, h1 ▸ h2, h3⟩
    · rintro ⟨n, h1, h2, h3⟩; exact ⟨⟨n, h1⟩, by rw [h2, h1], h3⟩
  | interPart e ef nb nf =>
    simp only [bind_ok, ensure_ok, beq_iff_eq, ArrHdr.Is, FagHdr.elements, FagHdr.elementFaces,
      List.length_eq_one_iff, reduceCtorEq, false_imp_iff, implies_true, and_true]
    constructor
    · rintro ⟨⟨n, h1⟩, h2, h3⟩; exact ⟨n, h1, h1 ▸ h2, h3⟩
    · rintro ⟨n, h1, h2, h3⟩; exact ⟨⟨n, h1⟩, by rw [h2, h1], h3⟩

theorem checkFacial_ok {h : MeshHdr} {n : Nat} : checkFacial h n = .ok () ↔ FacialArraysOK h n := by
  unfold checkFacial FacialArraysOK
  split
  · rename_i heq; simp [heq]
  · rename_i fs heq
    split
    · rename_i he
      rw [List.isEmpty_iff] at he
      subst he
      simp only [true_iff]
      intro fs h1 h2
      rw [heq, Option.some.injEq] at h1
      exact absurd h1.symm h2
    · rename_i he
      rw [List.isEmpty_iff] at he
      simp only [bind_ok, ensure_ok, beq_iff_eq, checkAll_ok, checkFag_ok, heq, Option.some.injEq]
      constructor
      · rintro H _ rfl _; exact H
      · intro H; exact H fs rfl he

theorem hdr_onlyInc {h : MeshHdr} {n k : Nat} : OnlyInconsistent (checkTypes h) ∧
    OnlyInconsistent (checkNodal h n) ∧ OnlyInconsistent (checkFacial h k) := by
  refine ⟨onlyInc_all fun a _ => ?_, ?_, ?_⟩
  · cases a with
    | none => exact onlyInc_ok
    | some t => exact onlyInc_ensure rfl
  · unfold checkNodal
    split
    · exact onlyInc_ok
    · exact onlyInc_bind (onlyInc_ensure rfl) (onlyInc_bind (onlyInc_ensure rfl)
        (onlyInc_bind (onlyInc_ensure rfl) (onlyInc_ensure rfl)))
  · unfold checkFacial
    split
    · exact onlyInc_ok
    · split
      · exact onlyInc_ok
      · refine onlyInc_bind (onlyInc_ensure rfl) (onlyInc_all fun l _ => onlyInc_all fun f _ => ?_)
        unfold checkFag
        refine onlyInc_bind (onlyInc_ensure rfl) (onlyInc_bind (onlyInc_ensure rfl)
          (onlyInc_bind (onlyInc_ensure rfl) ?_))
        split
        · exact onlyInc_bind (onlyInc_ensure rfl) (onlyInc_bind (onlyInc_ensure rfl)
            (onlyInc_bind (onlyInc_ensure rfl) (onlyInc_ensure rfl)))
        · exact onlyInc_ok

/-! ## Nodes and vertices -/

section
variable {K : Type} [Field K] [LinearOrder K] {d : Nat}

omit [Field K] in
theorem foldl_max_bound (l : List K) (a : K) :
    l.foldl max a ∈ a :: l ∧ ∀ x ∈ a :: l, x ≤ l.foldl max a := by
  induction l generalizing a with
  | nil => simp
  | cons b l ih =>
    obtain ⟨h1, h2⟩ := ih (max a b)
    rw [List.foldl_cons]
    constructor
    · rcases List.mem_cons.1 h1 with h | h
      · rw [h]
        rcases max_choice a b with h' | h' <;> rw [h'] <;> simp
      · exact List.mem_cons_of_mem _ (List.mem_cons_of_mem _ h)
    · intro x hx
      have hab := h2 _ List.mem_cons_self
      rcases List.mem_cons.1 hx with rfl | hx
      · exact (le_max_left _ _).trans hab
      · rcases List.mem_cons.1 hx with rfl | hx
        · exact (le_max_right _ _).trans hab
        · exact h2 x (List.mem_cons_of_mem _ hx)

omit [Field K] in
theorem npMax_spec {l : List K} (hl : l ≠ []) :
    ∃ M, npMax l = some M ∧ M ∈ l ∧ ∀ x ∈ l, x ≤ M := by
  cases l with
  | nil => exact absurd rfl hl
  | cons a l => exact ⟨_, rfl, foldl_max_bound l a⟩

theorem mem_absCoords {l : List (Fin d → K)} {x : K} :
    x ∈ absCoords l ↔ ∃ p ∈ l, ∃ c, |p c| = x := by
  simp [absCoords]

theorem absCoords_ne {l : List (Fin d → K)} (hd : 0 < d) (hl : l ≠ []) : absCoords l ≠ [] := by
  obtain ⟨p, hp⟩ := List.exists_mem_of_ne_nil l hl
  exact List.ne_nil_of_mem (mem_absCoords.2 ⟨p, hp, ⟨0, hd⟩, rfl⟩)

theorem IsLargestCoord.unique {pts : List (Fin d → K)} {S T : K} (h : IsLargestCoord pts S)
    (h' : IsLargestCoord pts T) : S = T := by
  obtain ⟨⟨p, hp, c, rfl⟩, h1⟩ := h
  obtain ⟨⟨q, hq, e, rfl⟩, h2⟩ := h'
  exact le_antisymm (h2 p hp c) (h1 q hq e)

/-- One element: the errors are defined, and the tolerance is exceeded exactly when the nodes do not
match the vertices. -/
theorem elementErrors_spec (hd : 0 < d) (tol : K) {R : List (List K)} {vs : List (Fin d → K)}
    {row : List Nat} {nds : List (Fin d → K)} (hR : R.length = row.length) (hne : row ≠ [])
    (hv : ∀ v ∈ row, v < vs.length) :
    ∃ x, elementErrors R vs row nds = some x ∧
      (¬ tol + tol * x.2 ≤ x.1 ↔ NodesMatch tol R vs row nds) := by
  have hm := mapM_some_eq_map (l := row) (f := fun v => vs[v]?) (g := fun v => vs.getD v 0)
    fun v h => by
      rw [List.getElem?_eq_getElem (hv v h), List.getD_eq_getElem?_getD,
        List.getElem?_eq_getElem (hv v h)]; rfl
  have hpt : ∀ (i : Nat) v, row[i]? = some v →
      (row.map fun v => vs.getD v 0)[i]? = vs[v]? := by
    intro i v h
    have := hv v (List.mem_of_getElem? h)
    rw [List.getElem?_map, h, Option.map_some, List.getD_eq_getElem?_getD,
      List.getElem?_eq_getElem this]; rfl
  generalize hpts : (row.map fun v => vs.getD v 0) = pts at hm hpt
  have hlen : pts.length = row.length := by rw [← hpts, List.length_map]
  have hpne : pts ≠ [] := by
    intro h; rw [h] at hlen; exact hne (List.length_eq_zero_iff.1 hlen.symm)
  obtain ⟨S, hS, hS1, hS2⟩ := npMax_spec (absCoords_ne hd hpne)
  have hzne : List.zipWith (fun a b => a - b) (mapVertices R nds) pts ≠ [] := by
    intro h
    have h := congrArg List.length h
    simp only [List.length_zipWith, mapVertices, List.length_map, hR, hlen, min_self,
      List.length_nil] at h
    exact hne (List.length_eq_zero_iff.1 h)
  obtain ⟨M, hM, hM1, hM2⟩ := npMax_spec (absCoords_ne hd hzne)
  have hlarge : IsLargestCoord pts S :=
    ⟨mem_absCoords.1 hS1, fun p hp c => hS2 _ (mem_absCoords.2 ⟨p, hp, c, rfl⟩)⟩
  have hz : ∀ z, z ∈ List.zipWith (fun a b => a - b) (mapVertices R nds) pts ↔
      ∃ (i : Nat) (w : List K) (p : Fin d → K), R[i]? = some w ∧ pts[i]? = some p ∧
        z = (fun c => ((w.zip nds).map fun q => q.1 * q.2 c).sum) - p := by
    intro z
    rw [List.mem_iff_getElem?]
    constructor
    · rintro ⟨i, hi⟩
      rw [List.getElem?_zipWith_eq_some] at hi
      obtain ⟨a, p, h1, h2, rfl⟩ := hi
      rw [mapVertices, List.getElem?_map, Option.map_eq_some_iff] at h1
      obtain ⟨w, h1, rfl⟩ := h1
      exact ⟨i, w, p, h1, h2, rfl⟩
    · rintro ⟨i, w, p, h1, h2, rfl⟩
      refine ⟨i, ?_⟩
      rw [List.getElem?_zipWith_eq_some]
      exact ⟨_, p, by rw [mapVertices, List.getElem?_map, h1]; rfl, h2, rfl⟩
  refine ⟨(M, S), ?_, ?_⟩
  · rw [elementErrors, hm, Option.bind_some, if_neg (by rw [hR, hlen]; simp), hM,
      Option.bind_some, hS]; rfl
  · simp only [not_le]
    have hts : tol + tol * S = tol * (1 + S) := by ring
    rw [hts]
    constructor
    · intro hlt
      refine ⟨pts, S, hlen, hpt, hlarge, fun i w p h1 h2 c => lt_of_le_of_lt ?_ hlt⟩
      exact hM2 _ (mem_absCoords.2 ⟨_, (hz _).2 ⟨i, w, p, h1, h2, rfl⟩, c, rfl⟩)
    · rintro ⟨pts', S', hl', hp', hL', hall⟩
      have hpe : pts' = pts := by
        apply List.ext_getElem?
        intro i
        rcases Nat.lt_or_ge i row.length with hi | hi
        · have hr := List.getElem?_eq_getElem hi
          rw [hp' i _ hr, hpt i _ hr]
        · rw [List.getElem?_eq_none (by omega), List.getElem?_eq_none (by omega)]
      subst hpe
      obtain rfl := hL'.unique hlarge
      obtain ⟨z, hzm, c, rfl⟩ := mem_absCoords.1 hM1
      obtain ⟨i, w, p, h1, h2, rfl⟩ := (hz z).1 hzm
      exact hall i w p h1 h2 c

theorem checkGroupNodes_spec (hd : 0 < d) {tol : K} {R : List (List K)} {vs : List (Fin d → K)}
    {g : ElGroup (List (Fin d → K))} (hl : g.vertexIndices.length = g.nodes.length)
    (hR : ∀ row ∈ g.vertexIndices, R.length = row.length ∧ row ≠ [])
    (hv : ∀ row ∈ g.vertexIndices, ∀ v ∈ row, v < vs.length) :
    OnlyInconsistent (checkGroupNodes tol R (some vs) g) ∧
    (checkGroupNodes tol R (some vs) g = .ok () ↔
      ∀ (e : Nat) row nds, g.vertexIndices[e]? = some row → g.nodes[e]? = some nds →
        NodesMatch tol R vs row nds) := by
  have hmem : ∀ p ∈ g.vertexIndices.zip g.nodes, p.1 ∈ g.vertexIndices := by
    rintro ⟨a, b⟩ hp; exact (List.of_mem_zip hp).1
  have hel : ∀ p ∈ g.vertexIndices.zip g.nodes, ∃ x, elementErrors R vs p.1 p.2 = some x ∧
      (¬ tol + tol * x.2 ≤ x.1 ↔ NodesMatch tol R vs p.1 p.2) := fun p hp =>
    elementErrors_spec hd tol (hR _ (hmem p hp)).1 (hR _ (hmem p hp)).2 (hv _ (hmem p hp))
  have hm := mapM_some_eq_map (l := g.vertexIndices.zip g.nodes)
    (f := fun p => elementErrors R vs p.1 p.2)
    (g := fun p => (elementErrors R vs p.1 p.2).getD (0, 0)) fun p hp => by
      obtain ⟨x, hx, _⟩ := hel p hp
      simp [hx]
  unfold checkGroupNodes
  simp only
  split
  · rename_i h0
    refine ⟨onlyInc_ok, ?_⟩
    simp only [true_iff]
    intro e row nds _ h2
    rw [ElGroup.nelements] at h0
    rw [List.length_eq_zero_iff.1 h0] at h2
    simp at h2
  · rw [if_neg (by rw [ElGroup.nelements, hl]; simp), hm]
    simp only
    refine ⟨onlyInc_ensure rfl, ?_⟩
    rw [ensure_ok]
    simp only [Bool.not_eq_true', List.any_eq_false, List.mem_map, decide_eq_true_eq,
      forall_exists_index, and_imp, forall_apply_eq_imp_iff₂]
    constructor
    · intro H e row nds h1 h2
      have hp : (row, nds) ∈ g.vertexIndices.zip g.nodes :=
        List.mem_of_getElem? (List.getElem?_zip_eq_some.2 ⟨h1, h2⟩)
      obtain ⟨x, hx, hxm⟩ := hel _ hp
      have := H _ hp
      rw [hx] at this
      exact hxm.1 this
    · intro H p hp
      obtain ⟨i, hi⟩ := List.mem_iff_getElem?.1 hp
      rw [List.getElem?_zip_eq_some] at hi
      obtain ⟨x, hx, hxm⟩ := hel _ hp
      rw [hx]
      exact hxm.2 (H i _ _ hi.1 hi.2)

/-! ## Orientation -/

theorem orientLoop_tol {N : Type} {shape : Nat → GShape} {vs : List (Fin d → K)}
    {groups : List (ElGroup N)} (hd : d ≠ 0)
    (hs : ∀ g ∈ groups, shape g.kind ≠ .other → (shape g.kind).Corners d)
    (h : ∀ g ∈ groups, shape g.kind ≠ .other → ∀ row ∈ g.vertexIndices,
      ∃ o, elemOrient vs (unitVerts (shape g.kind)) row = some o) :
    ∃ os, orientLoop shape vs true groups = .ok os ∧ (os.all notBad = true ↔
      ∀ g ∈ groups, shape g.kind ≠ .other → ∀ row ∈ g.vertexIndices,
        ∃ o, elemOrient vs (unitVerts (shape g.kind)) row = some o ∧ 0 < o) := by
  induction groups with
  | nil => exact ⟨[], rfl, by simp⟩
  | cons g rest ih =>
    obtain ⟨os, h1, h2⟩ := ih (fun x hx => hs x (List.mem_cons_of_mem _ hx))
      fun x hx => h x (List.mem_cons_of_mem _ hx)
    by_cases hg : shape g.kind = .other
    · have hgo : groupOrient shape vs g = .error .notImplemented := by rw [groupOrient, hg]
      refine ⟨List.replicate g.nelements none ++ os, ?_, ?_⟩
      · rw [orientLoop, hgo]
        simp [h1]
      · rw [List.all_append, Bool.and_eq_true, h2]
        simp only [List.forall_mem_cons, hg]
        simp [notBad]
    · obtain ⟨l, h3, h4⟩ := groupOrient_ok hd (hs g List.mem_cons_self hg)
        (h g List.mem_cons_self hg)
      refine ⟨l.map some ++ os, ?_, ?_⟩
      · rw [orientLoop, h3]
        simp only [h1]
      · rw [List.all_append, Bool.and_eq_true, h2, h4]
        simp only [List.forall_mem_cons]
        refine and_congr_left' ?_
        simp only [List.all_eq_true, List.mem_map, forall_exists_index, and_imp,
          forall_apply_eq_imp_iff₂, ne_eq, hg, not_false_eq_true, forall_const]
        refine forall₂_congr fun row hrow => ?_
        obtain ⟨o, ho⟩ := h g List.mem_cons_self hg row hrow
        rw [ho]
        simp [notBad]

theorem singleValued_of {l : List Nat} {n : Nat} (hne : l ≠ []) (h : ∀ x ∈ l, x = n) :
    singleValued l = some n := by
  cases l with
  | nil => exact absurd rfl hne
  | cons a l =>
    have ha := h a List.mem_cons_self
    subst ha
    rw [singleValued, if_pos]
    simpa using fun x hx => h x (List.mem_cons_of_mem _ hx)

/-! ## The theorems -/

variable {A : Type} {shape : Nat → GShape} {dimOf : Nat → Nat} {R : Nat → List (List K)}
  {vs : List (Fin d → K)} {m : FMesh (List (Fin d → K)) (Fin d → K) A}

theorem checkNodes_spec (hm : Checkable shape dimOf R vs m) (t : K) :
    OnlyInconsistent (checkNodes shape R t m) ∧ (checkNodes shape R t m = .ok () ↔
      ∀ g ∈ m.groups, shape g.kind ≠ .other →
        ∀ (e : Nat) row nds, g.vertexIndices[e]? = some row → g.nodes[e]? = some nds →
          NodesMatch t (R g.kind) vs row nds) := by
  have key : ∀ g ∈ m.groups, shape g.kind ≠ .other → _ := fun g hg ho =>
    checkGroupNodes_spec (tol := t) (R := R g.kind) hm.pos (hm.rows g hg)
      (fun row hrow => (hm.len g hg ho row hrow).2) (hm.valid g hg)
  unfold checkNodes
  rw [checkAll_ok, hm.vertices]
  constructor
  · refine onlyInc_all fun g hg => ?_
    split
    · exact onlyInc_ok
    · rename_i ho
      exact (key g hg ho).1
  · refine forall₂_congr fun g hg => ?_
    split
    · rename_i ho; simp [ho]
    · rename_i ho
      rw [(key g hg ho).2]
      exact ⟨fun H _ => H, fun H => H ho⟩

theorem checkNodes_error (hm : Checkable shape dimOf R vs m) {t : K} {e : CheckErr}
    (h : checkNodes shape R t m = .error e) : e = .vertices := by
  have hinc := (checkNodes_spec hm t).1 e h
  obtain ⟨g, _, hg⟩ := checkAll_error h
  split at hg
  · simp at hg
  · unfold checkGroupNodes at hg
    rw [hm.vertices] at hg
    simp only at hg
    split at hg
    · simp at hg
    · split at hg
      · rw [Except.error.injEq] at hg; subst hg; simp [CheckErr.inconsistent] at hinc
      · split at hg
        · rw [Except.error.injEq] at hg; subst hg; simp [CheckErr.inconsistent] at hinc
        · unfold ensure at hg
          split at hg
          · simp at hg
          · rw [Except.error.injEq] at hg; exact hg.symm

theorem checkOrient_spec (hm : Checkable shape dimOf R vs m) :
    OnlyInconsistent (checkOrient shape dimOf m) ∧ (checkOrient shape dimOf m = .ok () ↔
      ((∀ g ∈ m.groups, dimOf g.kind = d) → ∀ g ∈ m.groups, shape g.kind ≠ .other →
        ∀ row ∈ g.vertexIndices,
          ∃ o, elemOrient vs (unitVerts (shape g.kind)) row = some o ∧ 0 < o)) := by
  obtain ⟨n, hne, hn⟩ := hm.dims
  have hsv : singleValued (m.groups.map fun g => dimOf g.kind) = some n :=
    singleValued_of (by simpa using hne) (by simpa using hn)
  unfold checkOrient
  rw [hsv]
  simp only
  by_cases hnd : n = d
  · rw [if_pos hnd, meshOrient, hm.vertices]
    simp only
    rw [if_neg (by simpa using hne)]
    have hdim : ∀ g ∈ m.groups, dimOf g.kind = d := fun g hg => (hn g hg).trans hnd
    obtain ⟨os, h1, h2⟩ := orientLoop_tol (shape := shape) (vs := vs) hm.pos.ne'
      (fun g hg ho => hm.corners g hg ho (hdim g hg)) (fun g hg ho row hrow =>
        elemOrient_defined (hm.corners g hg ho (hdim g hg)) (hm.len g hg ho row hrow).1
          (hm.valid g hg row hrow))
    rw [h1]
    simp only
    refine ⟨onlyInc_ensure rfl, ?_⟩
    rw [ensure_ok, h2]
    exact ⟨fun H _ => H, fun H => H hdim⟩
  · rw [if_neg hnd]
    refine ⟨onlyInc_ok, ?_⟩
    simp only [true_iff]
    intro hdim
    obtain ⟨g, hg⟩ := List.exists_mem_of_ne_nil _ hne
    exact absurd ((hn g hg).symm.trans (hdim g hg)) hnd

/-- C56: for a mesh whose arrays fit together, `check_mesh_consistency` accepts exactly when nodes
and vertices match, identifiers have the declared types, the checked adjacency arrays have the right
shapes and types, and all elements are positively oriented. -/
theorem C56_accepts_iff (hm : Checkable shape dimOf R vs m) (tol : Option K) (skip : Bool)
    (h : MeshHdr) : checkMesh shape dimOf R tol skip h m = .ok () ↔
      MeshConsistent shape dimOf R tol skip h vs m := by
  unfold checkMesh
  rw [bind_ok, bind_ok, bind_ok, bind_ok, checkTypes_ok, checkNodal_ok, checkFacial_ok]
  have h1 : checkNodesIf shape R m tol = Except.ok () ↔
      ∀ t, tol = some t → ∀ g ∈ m.groups, shape g.kind ≠ .other →
        ∀ (e : Nat) row nds, g.vertexIndices[e]? = some row → g.nodes[e]? = some nds →
          NodesMatch t (R g.kind) vs row nds := by
    cases tol with
    | none => simp [checkNodesIf]
    | some t =>
      simp only [checkNodesIf, (checkNodes_spec hm t).2]
      exact ⟨by rintro H _ ⟨⟩; exact H, fun H => H t rfl⟩
  have h2 : (if skip = true then Except.ok () else checkOrient shape dimOf m) = Except.ok () ↔
      (skip = false → (∀ g ∈ m.groups, dimOf g.kind = d) → ∀ g ∈ m.groups, shape g.kind ≠ .other →
        ∀ row ∈ g.vertexIndices,
          ∃ o, elemOrient vs (unitVerts (shape g.kind)) row = some o ∧ 0 < o) := by
    cases skip with
    | true => simp
    | false => simp only [Bool.false_eq_true, if_false, (checkOrient_spec hm).2, forall_const]
  rw [h1, h2]
  exact ⟨fun ⟨a, b, c, e, f⟩ => ⟨a, b, c, e, f⟩, fun ⟨a, b, c, e, f⟩ => ⟨a, b, c, e, f⟩⟩

/-- C56: `is_mesh_consistent` then always answers, and with exactly that. -/
theorem C56_is_consistent (hm : Checkable shape dimOf R vs m) (tol : Option K) (skip : Bool)
    (h : MeshHdr) : ∃ b, isMeshConsistent shape dimOf R tol skip h m = .ok b ∧
      (b = true ↔ MeshConsistent shape dimOf R tol skip h vs m) := by
  have hinc : OnlyInconsistent (checkMesh shape dimOf R tol skip h m) := by
    obtain ⟨i1, i2, i3⟩ := hdr_onlyInc (h := h) (n := (m.groups.map ElGroup.nelements).sum)
      (k := m.groups.length)
    refine onlyInc_bind ?_ (onlyInc_bind i1 (onlyInc_bind i2 (onlyInc_bind i3 ?_)))
    · cases tol with
      | none => exact onlyInc_ok
      | some t => exact (checkNodes_spec hm t).1
    · split
      · exact onlyInc_ok
      · exact (checkOrient_spec hm).1
  rw [← C56_accepts_iff hm, isMeshConsistent]
  cases hc : checkMesh shape dimOf R tol skip h m with
  | ok u => exact ⟨true, rfl, by simp⟩
  | error e => exact ⟨false, by simp [hinc e hc], by simp⟩

/-- C56: `InconsistentVerticesError` is raised exactly when the test is on and the nodes of some element
do not match its vertices. -/
theorem C56_vertices_error (hm : Checkable shape dimOf R vs m) (tol : Option K) (skip : Bool)
    (h : MeshHdr) : checkMesh shape dimOf R tol skip h m = .error .vertices ↔
      ∃ t, tol = some t ∧ ∃ g ∈ m.groups, shape g.kind ≠ .other ∧
        ∃ (e : Nat) (row : List Nat) (nds : List (Fin d → K)), g.vertexIndices[e]? = some row ∧
          g.nodes[e]? = some nds ∧ ¬ NodesMatch t (R g.kind) vs row nds := by
  have hrest : NotVertices (checkTypes h >>= fun _ =>
      checkNodal h (m.groups.map ElGroup.nelements).sum >>= fun _ =>
      checkFacial h m.groups.length >>= fun _ =>
      if skip then .ok () else checkOrient shape dimOf m) := by
    refine notVert_bind ?_ (notVert_bind ?_ (notVert_bind ?_ ?_))
    · exact notVert_all fun a => by cases a <;> first | exact notVert_ok | exact notVert_ensure (by simp)
    · unfold checkNodal
      split
      · exact notVert_ok
      · exact notVert_bind (notVert_ensure (by simp)) (notVert_bind (notVert_ensure (by simp))
          (notVert_bind (notVert_ensure (by simp)) (notVert_ensure (by simp))))
    · unfold checkFacial
      split
      · exact notVert_ok
      · split
        · exact notVert_ok
        · refine notVert_bind (notVert_ensure (by simp)) (notVert_all fun l => notVert_all fun f => ?_)
          unfold checkFag
          refine notVert_bind (notVert_ensure (by simp)) (notVert_bind (notVert_ensure (by simp))
            (notVert_bind (notVert_ensure (by simp)) ?_))
          split
          · exact notVert_bind (notVert_ensure (by simp)) (notVert_bind (notVert_ensure (by simp))
              (notVert_bind (notVert_ensure (by simp)) (notVert_ensure (by simp))))
          · exact notVert_ok
    · split
      · exact notVert_ok
      · unfold checkOrient
        split
        · simp [NotVertices]
        · split
          · split
            · simp [NotVertices]
            · exact notVert_ensure (by simp)
          · exact notVert_ok
  unfold checkMesh
  cases tol with
  | none =>
    simp only [checkNodesIf, reduceCtorEq, false_and, exists_false, iff_false]
    exact hrest
  | some t =>
    have hsp := checkNodes_spec hm t
    have hv : checkNodes shape R t m = .ok () ∨ checkNodes shape R t m = .error .vertices := by
      cases hc : checkNodes shape R t m with
      | ok u => exact .inl rfl
      | error e => exact .inr (by rw [checkNodes_error hm hc])
    simp only [checkNodesIf]
    rcases hv with hv | hv
    · rw [hv]
      have hall := hsp.2.1 hv
      constructor
      · intro he; exact absurd he hrest
      · rintro ⟨t', ht, g, hg, ho, e, row, nds, h1, h2, h3⟩
        obtain rfl := Option.some.inj ht
        exact absurd (hall g hg ho e row nds h1 h2) h3
    · rw [hv]
      have hall := mt hsp.2.2 (by rw [hv]; simp)
      refine ⟨fun _ => ⟨t, rfl, ?_⟩, fun _ => rfl⟩
      by_contra hcon
      refine hall fun g hg ho e row nds h1 h2 => ?_
      by_contra h3
      exact hcon ⟨g, hg, ho, e, row, nds, h1, h2, h3⟩

/-- C56: in a consistent volume mesh of dimension one to three every element that is an affine image
of its reference element is positively oriented. -/
theorem C56_affine_positive [IsStrictOrderedRing K] (hm : Checkable shape dimOf R vs m)
    (hd3 : d ≤ 3) {tol : Option K} {h : MeshHdr}
    (hok : checkMesh shape dimOf R tol false h m = .ok ()) (hdim : ∀ g ∈ m.groups, dimOf g.kind = d)
    {g : ElGroup (List (Fin d → K))} (hg : g ∈ m.groups) (ho : shape g.kind ≠ .other)
    {row : List Nat} (hrow : row ∈ g.vertexIndices) {B : Matrix (Fin d) (Fin d) K} {b : Fin d → K}
    (ha : AffineElement vs (unitVerts (shape g.kind)) row B b) : 0 < B.det := by
  obtain ⟨o, h1, h2⟩ := ((C56_accepts_iff hm tol false h).1 hok).orient rfl hdim g hg ho row hrow
  obtain ⟨o', h3, h4, _⟩ := C55_orientation_exact hm.pos hd3 (hm.corners g hg ho (hdim g hg)) ha
  rw [h1, Option.some.injEq] at h3
  subst h3
  exact h4.1 h2

/-- C56 fails for the boolean version on volume meshes without vertices: if nothing else is wrong it
raises the orientation's `ValueError` rather than answer. -/
theorem C56_no_vertices_counterexample (hv : m.vertices = none) {h : MeshHdr} {tol : Option K}
    (hne : m.groups ≠ []) (hdim : ∀ g ∈ m.groups, dimOf g.kind = d)
    (hty : ∀ t, some t ∈ h.groupTypes → t = h.vertexId)
    (hn : NodalArraysOK h (m.groups.map ElGroup.nelements).sum)
    (hf : FacialArraysOK h m.groups.length) :
    isMeshConsistent shape dimOf R tol false h m = .error (.orient .noVertices) := by
  have h0 : checkNodesIf shape R m tol = Except.ok () := by
    cases tol with
    | none => rfl
    | some t =>
      simp only [checkNodesIf, checkNodes, checkAll_ok, hv]
      intro g _
      split <;> rfl
  have ho : checkOrient shape dimOf m = .error (.orient .noVertices) := by
    rw [checkOrient, singleValued_of (by simpa using hne) (by simpa using hdim)]
    simp only
    rw [if_pos trivial, meshOrient, hv]
  unfold isMeshConsistent checkMesh
  rw [h0, checkTypes_ok.2 hty, checkNodal_ok.2 hn, checkFacial_ok.2 hf]
  simp only [bind, Except.bind, Bool.false_eq_true, if_false, ho, CheckErr.inconsistent]

end

/-! ### Examples -/

/-- Vertices of the example: the unit square. -/
def exCheckVerts : List (Fin 2 → ℚ) := [exPoint 0 0, exPoint 1 0, exPoint 0 1, exPoint 1 1]

/-- The resampling matrix of order one for triangles: the nodes are the vertices. -/
def exCheckR : Nat → List (List ℚ) := fun _ => [[1, 0, 0], [0, 1, 0], [0, 0, 1]]

/-- The unit square as two triangles of order one, the nodes at the vertices. -/
def exCheck : FMesh (List (Fin 2 → ℚ)) (Fin 2 → ℚ) Unit :=
  ⟨2, some exCheckVerts,
    [⟨0, [[0, 1], [1, 2], [2, 0]], [[0, 1, 2], [3, 2, 1]],
      [[exPoint 0 0, exPoint 1 0, exPoint 0 1], [exPoint 1 1, exPoint 0 1, exPoint 1 0]]⟩],
    ⟨some true, .missing, .missing⟩⟩

theorem exCheck_checkable : Checkable exOrientShape (fun _ => 2) exCheckR exCheckVerts exCheck where
  vertices := rfl
  pos := by omega
  dims := ⟨2, by simp [exCheck], fun _ _ => rfl⟩
  rows := by simp [exCheck]
  len := by simp [exCheck, exOrientShape, unitVerts, exCheckR]
  valid := by simp [exCheck, exCheckVerts]
  corners := by
    intro g hg _ _
    simp only [exCheck, List.mem_singleton] at hg
    subst hg
    exact simplex_corners 2

theorem exCheck_largest (a b c : Fin 2 → ℚ) (h : ∀ p ∈ [a, b, c], ∀ i, |p i| ≤ 1)
    (h1 : ∃ i, |b i| = 1) : IsLargestCoord [a, b, c] 1 :=
  ⟨⟨b, by simp, h1⟩, h⟩

/-- The example is accepted whenever the arrays of the header are right. -/
theorem exCheck_ok {h : MeshHdr} (hty : ∀ t, some t ∈ h.groupTypes → t = h.vertexId)
    (hn : NodalArraysOK h 2) (hf : FacialArraysOK h 1) :
    checkMesh exOrientShape (fun _ => 2) exCheckR (some (1 / 1000)) false h exCheck = .ok () := by
  rw [C56_accepts_iff exCheck_checkable]
  refine ⟨?_, hty, hn, hf, ?_⟩
  · rintro t ⟨⟩ g hg _ e row nds h1 h2
    simp only [exCheck, List.mem_singleton] at hg
    subst hg
    have he := (List.getElem?_eq_some_iff.1 h1).1
    simp only [List.length_cons, List.length_nil] at he
    interval_cases e
    · obtain rfl := Option.some.inj h1
      obtain rfl := Option.some.inj h2
      refine ⟨[exPoint 0 0, exPoint 1 0, exPoint 0 1], 1, rfl, ?_, exCheck_largest _ _ _ ?_
        ⟨0, by simp [exPoint]⟩, ?_⟩
      · intro i v hv
        have hi := (List.getElem?_eq_some_iff.1 hv).1
        simp only [List.length_cons, List.length_nil] at hi
        interval_cases i <;> obtain rfl := Option.some.inj hv <;> rfl
      · simp [exPoint, Fin.forall_fin_two]
      · intro i w p hw hp c
        have hi := (List.getElem?_eq_some_iff.1 hp).1
        simp only [List.length_cons, List.length_nil] at hi
        interval_cases i <;> obtain rfl := Option.some.inj hw <;>
          obtain rfl := Option.some.inj hp <;> norm_num [exPoint]
    · obtain rfl := Option.some.inj h1
      obtain rfl := Option.some.inj h2
      refine ⟨[exPoint 1 1, exPoint 0 1, exPoint 1 0], 1, rfl, ?_, exCheck_largest _ _ _ ?_
        ⟨1, by simp [exPoint]⟩, ?_⟩
      · intro i v hv
        have hi := (List.getElem?_eq_some_iff.1 hv).1
        simp only [List.length_cons, List.length_nil] at hi
        interval_cases i <;> obtain rfl := Option.some.inj hv <;> rfl
      · simp [exPoint, Fin.forall_fin_two]
      · intro i w p hw hp c
        have hi := (List.getElem?_eq_some_iff.1 hp).1
        simp only [List.length_cons, List.length_nil] at hi
        interval_cases i <;> obtain rfl := Option.some.inj hw <;>
          obtain rfl := Option.some.inj hp <;> norm_num [exPoint]
  · intro _ _ g hg _ row hrow
    simp only [exCheck, List.mem_singleton] at hg
    subst hg
    simp only [List.mem_cons, List.not_mem_nil, or_false] at hrow
    rcases hrow with rfl | rfl
    · have e1 := elemOrient_two (vs := exCheckVerts) (row := [0, 1, 2])
        (uv := unitVerts (exOrientShape 0)) rfl rfl rfl
      exact ⟨_, e1, by norm_num [exPoint]⟩
    · have e1 := elemOrient_two (vs := exCheckVerts) (row := [3, 2, 1])
        (uv := unitVerts (exOrientShape 0)) rfl rfl rfl
      exact ⟨_, e1, by norm_num [exPoint]⟩

/-- A header with nodal and facial adjacency, all of whose arrays fit (types: 4 for vertices and
elements, 1 for faces). -/
def exHdr : MeshHdr :=
  ⟨4, 4, 1, [some 4], some (⟨4, [3]⟩, ⟨4, [2]⟩),
    some [[.interior ⟨4, [2]⟩ ⟨1, [2]⟩ ⟨4, [2]⟩ ⟨1, [2]⟩, .boundary ⟨4, [4]⟩ ⟨1, [4]⟩]]⟩

/-- The hypotheses of the theorems hold for a mesh with all kinds of data, which is accepted. -/
example : checkMesh exOrientShape (fun _ => 2) exCheckR (some (1 / 1000)) false exHdr exCheck = .ok () :=
  exCheck_ok (by simp [exHdr]) (checkNodal_ok.1 rfl) (checkFacial_ok.1 rfl)

/-- C56 fails for groups facing other parts: their neighbour arrays may have any length and type. -/
theorem C56_inter_part_counterexample : ∃ (h : MeshHdr) (e ef nb nf : ArrHdr),
    h.facial = some [[.interPart e ef nb nf]] ∧ nb.shape ≠ e.shape ∧ nf.shape ≠ e.shape ∧
    nb.dtype ≠ h.elementId ∧ nf.dtype ≠ h.faceId ∧
    checkMesh exOrientShape (fun _ => 2) exCheckR (some (1 / 1000)) false h exCheck = .ok () :=
  ⟨{ exHdr with facial := some [[.interPart ⟨4, [2]⟩ ⟨1, [2]⟩ ⟨9, [7]⟩ ⟨9, [3, 3]⟩]] }, _, _, _, _, rfl,
    by simp, by simp, by simp [exHdr], by simp [exHdr],
    exCheck_ok (by simp [exHdr]) (checkNodal_ok.1 rfl) (checkFacial_ok.1 rfl)⟩

/-- C56 fails for the array `elements`, whose type is not checked, in any kind of group. -/
theorem C56_elements_type_counterexample : ∃ (h : MeshHdr) (e ef nb nf : ArrHdr),
    h.facial = some [[.interior e ef nb nf, .boundary e ef]] ∧ e.dtype ≠ h.elementId ∧
    checkMesh exOrientShape (fun _ => 2) exCheckR (some (1 / 1000)) false h exCheck = .ok () :=
  ⟨{ exHdr with facial := some [[.interior ⟨9, [2]⟩ ⟨1, [2]⟩ ⟨4, [2]⟩ ⟨1, [2]⟩,
      .boundary ⟨9, [2]⟩ ⟨1, [2]⟩]] }, _, _, _, _, rfl, by simp [exHdr],
    exCheck_ok (by simp [exHdr]) (checkNodal_ok.1 rfl) (checkFacial_ok.1 rfl)⟩

/-- C56 fails for an empty list of adjacency groups, which is accepted for a mesh with a group. -/
theorem C56_empty_facial_counterexample : ∃ h : MeshHdr, h.facial = some [] ∧
    exCheck.groups.length = 1 ∧
    checkMesh exOrientShape (fun _ => 2) exCheckR (some (1 / 1000)) false h exCheck = .ok () :=
  ⟨{ exHdr with facial := some [] }, rfl, rfl,
    exCheck_ok (by simp [exHdr]) (checkNodal_ok.1 rfl) (checkFacial_ok.1 rfl)⟩

/-- A mesh without vertices that meets the hypotheses of `C56_no_vertices_counterexample`. -/
example : isMeshConsistent exOrientShape (fun _ => 2) exCheckR (some (1 / 1000)) false exHdr
    { exCheck with vertices := none } = .error (.orient .noVertices) :=
  C56_no_vertices_counterexample rfl (by simp [exCheck]) (fun _ _ => rfl) (by simp [exHdr])
    (checkNodal_ok.1 rfl) (checkFacial_ok.1 rfl)

end Meshmode
