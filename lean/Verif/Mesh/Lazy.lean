/-!
# Lazily computed adjacency (C08)

`make_mesh` input normalisation (meshmode/mesh/__init__.py:1065-1098) and the properties
`Mesh.nodal_adjacency` / `Mesh.facial_adjacency_groups`
(meshmode/mesh/__init__.py:1398-1422 and 1425-1493).
-/
namespace Meshmode

/-- Value of `Mesh._nodal_adjacency` / `_facial_adjacency_groups`: `None`, `False`, or data.
Code: meshmode/mesh/__init__.py:1065-1098, 1409-1422, 1474-1493. -/
inductive Slot (α : Type) where
  | missing | disabled | data (a : α)
  deriving DecidableEq, Repr

/-- Outcome of accessing one of the two properties: data, `DataUnavailableError`, or the error
raised by the computation itself.
Code: meshmode/mesh/__init__.py:1065-1098, 1409-1422, 1474-1493. -/
inductive Access (α : Type) where
  | ok (a : α) | unavailable | failed
  deriving DecidableEq, Repr

/-- The part of a mesh's state that the two properties read and write.
Code: meshmode/mesh/__init__.py:1065-1098, 1409-1422, 1474-1493. -/
structure LazyMesh (Nd Fc : Type) where
  conforming : Option Bool
  nodal : Slot Nd
  facial : Slot Fc
  deriving DecidableEq, Repr

/-- `make_mesh`: without vertices conformity is unknown; if the mesh is not known to be conforming,
missing adjacency is disabled; given facial adjacency is completed
(meshmode/mesh/__init__.py:1065-1098). -/
def LazyMesh.make {Nd Fc : Type} (complete : Fc → Fc) (hasVertices : Bool)
    (conforming : Option Bool) (nodal : Slot Nd) (facial : Slot Fc) : LazyMesh Nd Fc :=
  let conforming := if hasVertices then conforming else none
  let nodal := if conforming = some true then nodal else
    match nodal with | .missing => .disabled | s => s
  let facial := if conforming = some true then facial else
    match facial with | .missing => .disabled | s => s
  let facial := match facial with | .data f => .data (complete f) | s => s
  ⟨conforming, nodal, facial⟩

/-- One property access: `slot` is the cached field, `compute` the function run on the (immutable)
groups and vertices, `none` if it raises.  Both properties have this shape
(meshmode/mesh/__init__.py:1409-1422 and 1474-1493). -/
def accessSlot {α : Type} (conforming : Option Bool) (compute : Option α) (slot : Slot α) :
    Access α × Slot α :=
  match slot with
  | .disabled => (.unavailable, .disabled)
  | .missing =>
      if conforming ≠ some true then (.unavailable, .missing)
      else match compute with
        | none => (.failed, .missing)
        | some a => (.ok a, .data a)
  | .data a => (.ok a, .data a)

/-- A user's access. Code: meshmode/mesh/__init__.py:1065-1098, 1409-1422, 1474-1493. -/
inductive LazyOp where
  | nodal | facial
  deriving DecidableEq, Repr

/-- Outcome of a user's access. Code: meshmode/mesh/__init__.py:1065-1098, 1409-1422, 1474-1493. -/
inductive LazyOut (Nd Fc : Type) where
  | nodal (r : Access Nd) | facial (r : Access Fc)
  deriving DecidableEq, Repr

/-- Run one access. Code: meshmode/mesh/__init__.py:1065-1098, 1409-1422, 1474-1493. -/
def LazyMesh.step {Nd Fc : Type} (cn : Option Nd) (cf : Option Fc) (m : LazyMesh Nd Fc) :
    LazyOp → LazyOut Nd Fc × LazyMesh Nd Fc
  | .nodal => let r := accessSlot m.conforming cn m.nodal
              (.nodal r.1, { m with nodal := r.2 })
  | .facial => let r := accessSlot m.conforming cf m.facial
               (.facial r.1, { m with facial := r.2 })

/-- Run a sequence of accesses and collect the outcomes.
Code: meshmode/mesh/__init__.py:1065-1098, 1409-1422, 1474-1493. -/
def LazyMesh.run {Nd Fc : Type} (cn : Option Nd) (cf : Option Fc) (m : LazyMesh Nd Fc) :
    List LazyOp → List (LazyOut Nd Fc) × LazyMesh Nd Fc
  | [] => ([], m)
  | op :: ops =>
      let r := m.step cn cf op
      let rest := r.2.run cn cf ops
      (r.1 :: rest.1, rest.2)

/-! ## Specification -/

/-- What an access must answer on a mesh built with these fields, independently of history.
(Specification or proof vocabulary, no code.) -/
def specAccess {α : Type} (conforming : Option Bool) (compute : Option α) : Slot α → Access α
  | .data a => .ok a
  | .disabled => .unavailable
  | .missing => match conforming, compute with
      | some true, some a => .ok a
      | some true, none => .failed
      | _, _ => .unavailable

/-- The answer for an access on mesh `m`. (Specification or proof vocabulary, no code.) -/
def specOut {Nd Fc : Type} (cn : Option Nd) (cf : Option Fc) (m : LazyMesh Nd Fc) :
    LazyOp → LazyOut Nd Fc
  | .nodal => .nodal (specAccess m.conforming cn m.nodal)
  | .facial => .facial (specAccess m.conforming cf m.facial)

theorem accessSlot_fst {α : Type} (c : Option Bool) (compute : Option α) (s : Slot α) :
    (accessSlot c compute s).1 = specAccess c compute s := by
  cases s <;> simp only [accessSlot, specAccess]
  rcases c with _ | _ | _ <;> cases compute <;> simp

theorem specAccess_accessSlot {α : Type} (c : Option Bool) (compute : Option α) (s : Slot α) :
    specAccess c compute (accessSlot c compute s).2 = specAccess c compute s := by
  cases s <;> simp only [accessSlot, specAccess]
  rcases c with _ | _ | _ <;> cases compute <;> simp

theorem specOut_step {Nd Fc : Type} (cn : Option Nd) (cf : Option Fc) (m : LazyMesh Nd Fc)
    (op op' : LazyOp) : specOut cn cf (m.step cn cf op).2 op' = specOut cn cf m op' := by
  cases op <;> cases op' <;> simp [LazyMesh.step, specOut, specAccess_accessSlot]

/-- C08: in every sequence of accesses, each access answers exactly what it would answer as the
first access on the fresh mesh. -/
theorem C08_lazy_adjacency_history_independent {Nd Fc : Type} (cn : Option Nd) (cf : Option Fc)
    (m : LazyMesh Nd Fc) (ops : List LazyOp) :
    (m.run cn cf ops).1 = ops.map (specOut cn cf m) := by
  induction ops generalizing m with
  | nil => rfl
  | cons op ops ih =>
    simp only [LazyMesh.run, ih, List.map_cons]
    congr 1
    · cases op <;> simp [LazyMesh.step, specOut, accessSlot_fst]
    · exact List.map_congr_left fun op' _ => specOut_step cn cf m op op'

/-- C08: the answers in terms of the arguments of `make_mesh`.  Supplied data come back (facial
adjacency completed); missing data are computed exactly when there are vertices and the mesh was
declared conforming, and are unavailable otherwise; disabled data are unavailable. -/
theorem C08_make_mesh_access {Nd Fc : Type} (complete : Fc → Fc) (hasVertices : Bool)
    (conforming : Option Bool) (nodal : Slot Nd) (facial : Slot Fc) (cn : Nd) (cf : Fc)
    (ops : List LazyOp) :
    let known := hasVertices = true ∧ conforming = some true
    ((LazyMesh.make complete hasVertices conforming nodal facial).run (some cn) (some cf) ops).1
      = ops.map fun
        | .nodal => .nodal (match nodal with
            | .data a => .ok a
            | .disabled => .unavailable
            | .missing => if known then .ok cn else .unavailable)
        | .facial => .facial (match facial with
            | .data a => .ok (complete a)
            | .disabled => .unavailable
            | .missing => if known then .ok cf else .unavailable) := by
  intro known
  rw [C08_lazy_adjacency_history_independent]
  apply List.map_congr_left
  intro op _
  cases op <;> cases hasVertices <;> rcases conforming with _ | _ | _ <;> cases nodal <;>
    cases facial <;> simp [LazyMesh.make, specOut, specAccess, known]

/-- Non-vacuity: a conforming mesh with computed nodal and supplied facial adjacency. -/
example : ((LazyMesh.make (· + 1) true (some true) .missing (.data 5)).run (some 'n') (some 9)
    [.nodal, .facial, .nodal]).1 = [.nodal (.ok 'n'), .facial (.ok 6), .nodal (.ok 'n')] := by
  decide

end Meshmode
