import Mathlib.Algebra.BigOperators.Ring.Finset
import Mathlib.Algebra.Order.Field.Rat
import Mathlib.Tactic.Ring
import Verif.Discr.Arrays
import Verif.Interop.FiredrakeConn

/-!
# Fields of all shapes between meshmode and Firedrake (C101)

The checks of `FiredrakeConnection.__init__`, `firedrake_fspace`, `_validate_function`, `_validate_field`,
`from_firedrake` and `from_meshmode` (meshmode/interop/firedrake/connection.py:139-577) with arguments of all kinds.

Families, meshes and array contexts are numbers.  Components are numbered in row-major order, as in the flat data, so
that `reshape` does nothing.  What is written to the output before an exception is not modelled.
-/
namespace Meshmode

/-! ## Model: constructor -/

/-- Exceptions. Code: meshmode/interop/firedrake/connection.py:161-577. -/
inductive FfErr where
  | typeError
  | valueError
  | indexError
  | attributeError
  /-- `InconsistentDOFArray` -/
  | inconsistent
  deriving DecidableEq, Repr

/-- What callers pass as `group_nr`. Code: meshmode/interop/firedrake/connection.py:174-182. -/
inductive FfGroupArg where
  | none
  | int (i : Int)
  | other
  deriving DecidableEq, Repr

/-- The arguments of the constructor as far as it looks: whether they have the right types; for each group whether it
is interpolatory, and its numbers of elements and nodes; whether the family is "Discontinuous Lagrange"; shape, data
type and entries of the mapping. Code: meshmode/interop/firedrake/connection.py:161-214. -/
structure FfInit where
  isDiscr : Bool
  isSpace : Bool
  isArray : Bool
  groupNr : FfGroupArg
  groups : List (Bool × Nat × Nat)
  isDG : Bool
  shape : List Nat
  dtype : DType
  nodeDtype : DType
  entries : List Int
  deriving DecidableEq, Repr

/-- The checks from `discr.groups[group_nr]` on, meshmode/interop/firedrake/connection.py:183-214.  Negative numbers
count from the end. -/
def ffInitGroup (a : FfInit) (i : Int) : Except FfErr Nat :=
  match (if 0 ≤ i then a.groups[i.toNat]?
    else if 0 ≤ i + a.groups.length then a.groups[(i + a.groups.length).toNat]? else none) with
  | none => .error .indexError
  | some g =>
    if i < 0 ∨ i ≥ a.groups.length then .error .valueError
    else if g.1 = false then .error .typeError
    else if a.isDG = false then .error .typeError
    else if a.shape ≠ [g.2.1, g.2.2] then .error .valueError
    else if a.dtype ≠ a.nodeDtype then .error .valueError
    else if a.entries.dedup.length ≠ a.entries.length then .error .valueError
    else .ok i.toNat

/-- The checks of `FiredrakeConnection.__init__`, meshmode/interop/firedrake/connection.py:160-215; the number of the
group. -/
def ffInit (a : FfInit) : Except FfErr Nat :=
  if a.isDiscr = false then .error .typeError
  else if a.isSpace = false then .error .typeError
  else if a.isArray = false then .error .typeError
  else match a.groupNr with
    | .other => .error .typeError
    | .none => if a.groups.length ≠ 1 then .error .valueError else ffInitGroup a 0
    | .int i => ffInitGroup a i

/-! ## Model: fields and functions -/

/-- A Firedrake function: whether it is a `Function` or an `ExternalOperator`, family, degree, mesh and value shape of
its space, and its data by node and component. Code: meshmode/interop/firedrake/connection.py:279-320, 426-429. -/
structure FfFun (K : Type) where
  isFunction : Bool
  family : Nat
  degree : Nat
  mesh : Nat
  shape : List Nat
  dtype : DType
  nnodes : Nat
  data : Nat → Nat → K

/-- A `FiredrakeConnection`: numbers of elements and nodes of the groups, the group, the mapping of nodes, the matrices,
family, degree and mesh; number of nodes and data type of Firedrake's functions.
Code: meshmode/interop/firedrake/connection.py:217-238. -/
structure FfConn (K : Type) where
  groups : List (Nat × Nat)
  groupNr : Nat
  mapping : Nat → Nat → Int
  fd2mm : Nat → Nat → K
  mm2fd : Nat → Nat → K
  family : Nat
  degree : Nat
  mesh : Nat
  nnodes : Nat
  scalar : DType

/-- What callers pass as field: a DOF array, an object array with its entries in row-major order (`none` is something
else than a DOF array), or something else. Code: meshmode/interop/firedrake/connection.py:353-382. -/
inductive FfField (K : Type) where
  | dof (a : DofObj (GroupArr K))
  | objs (shape : List Nat) (entries : List (Option (DofObj (GroupArr K))))
  | other

section
variable {K : Type}

/-- Numbers of elements and nodes of the connected group.
Code: meshmode/interop/firedrake/connection.py:330-331. -/
def FfConn.size (c : FfConn K) : Nat × Nat := c.groups.getD c.groupNr (0, 0)

/-- `_validate_function`, meshmode/interop/firedrake/connection.py:279-320, without `dtype`, which no caller passes. -/
def FfConn.validateFunction (c : FfConn K) (f : FfFun K) (shape : Option (List Nat)) : Except FfErr Unit :=
  if f.isFunction = false then .error .typeError
  else if f.family ≠ c.family then .error .valueError
  else if f.degree ≠ c.degree then .error .valueError
  else if f.mesh ≠ c.mesh then .error .valueError
  else match shape with
    | none => .ok ()
    | some s => if f.shape ≠ s then .error .valueError else .ok ()

/-- `check_dof_array`, meshmode/interop/firedrake/connection.py:333-351. -/
def FfConn.checkArr (c : FfConn K) (dtype : Option DType) : Option (DofObj (GroupArr K)) → Except FfErr Unit
  | none => .error .typeError
  | some a =>
    if a.actx = none then .error .valueError
    else if a.data.length ≠ c.groups.length then .error .valueError
    else match a.data[c.groupNr]? with
      | none => .error .indexError
      | some x =>
        if (x.nrows, x.ncols) ≠ c.size then .error .valueError
        else match dtype with
          | none => .ok ()
          | some t => match entryDtype a with
            | .error _ => .error .valueError
            | .ok t' => if t' ≠ t then .error .valueError else .ok ()

/-- The loop over the entries, meshmode/interop/firedrake/connection.py:362-379. -/
def FfConn.checkArrs (c : FfConn K) (dtype : Option DType) : List (Option (DofObj (GroupArr K))) → Except FfErr Unit
  | [] => .ok ()
  | a :: as => match c.checkArr dtype a with
    | .error e => .error e
    | .ok _ => c.checkArrs dtype as

/-- `_validate_field`, meshmode/interop/firedrake/connection.py:322-382. -/
def FfConn.validateField (c : FfConn K) (field : FfField K) (shape : Option (List Nat)) (dtype : Option DType) :
    Except FfErr Unit :=
  match field with
  | .dof a => if shape ≠ none ∧ shape ≠ some [] then .error .valueError else c.checkArr dtype (some a)
  | .objs s as => if shape ≠ none ∧ shape ≠ some s then .error .valueError else c.checkArrs dtype as
  | .other => .error .typeError

/-- The entry that `array[i]` denotes; negative numbers count from the end.
Code: meshmode/interop/firedrake/connection.py:457, 559. -/
def ffIndex (n : Nat) (i : Int) : Option Nat :=
  if 0 ≤ i then (if i < n then some i.toNat else none)
  else if 0 ≤ i + n then some (i + n).toNat else none

/-- Whether indexing with the mapping raises no `IndexError`. Code: meshmode/interop/firedrake/connection.py:457, 559. -/
def FfConn.inRange (c : FfConn K) (n : Nat) : Bool :=
  (List.range c.size.1).all fun e => (List.range c.size.2).all fun k => (ffIndex n (c.mapping e k)).isSome

/-- The node of a degree of freedom. Code: meshmode/interop/firedrake/connection.py:457, 559. -/
def FfConn.node (c : FfConn K) (n e k : Nat) : Nat := (ffIndex n (c.mapping e k)).getD 0

/-- `reorder_and_resample`, meshmode/interop/firedrake/connection.py:452-459, for component `comp`. -/
def FfConn.resampleIn [CommRing K] (c : FfConn K) (f : FfFun K) (a : DofObj (GroupArr K)) (comp : Nat) :
    Except FfErr (DofObj (GroupArr K)) :=
  if c.inRange f.nnodes then
    .ok ⟨a.actx, a.data.modify c.groupNr fun x => ⟨x.nrows, x.ncols, x.dtype, fun e k =>
      ∑ j ∈ Finset.range c.size.2, f.data (c.node f.nnodes e j) comp * c.fd2mm k j⟩⟩
  else .error .indexError

/-- `discr.empty`, meshmode/interop/firedrake/connection.py:443-448 (zeros, see C96). -/
def FfConn.emptyArr [Zero K] (c : FfConn K) (actx : Nat) (t : DType) : DofObj (GroupArr K) :=
  ⟨some actx, c.groups.map fun g => ⟨g.1, g.2, t, fun _ _ => 0⟩⟩

/-- The loop over the components, meshmode/interop/firedrake/connection.py:463-475; `l` are the arrays from component
`comp` on. -/
def FfConn.resampleAll [CommRing K] (c : FfConn K) (f : FfFun K) :
    Nat → List (DofObj (GroupArr K)) → Except FfErr (List (DofObj (GroupArr K)))
  | _, [] => .ok []
  | comp, a :: as => match c.resampleIn f a comp with
    | .error e => .error e
    | .ok r => match c.resampleAll f (comp + 1) as with
      | .error e => .error e
      | .ok rs => .ok (r :: rs)

/-- `from_firedrake`, meshmode/interop/firedrake/connection.py:384-477.  `out.array_context` is evaluated for all kinds
of `out`; object arrays do not have it. -/
def FfConn.fromFiredrake [CommRing K] (c : FfConn K) (f : FfFun K) (out : Option (FfField K)) (actx : ActxArg) :
    Except FfErr (FfField K) :=
  match c.validateFunction f none with
  | .error e => .error e
  | .ok _ => match out with
    | some field => match c.validateField field (some f.shape) (some f.dtype) with
      | .error e => .error e
      | .ok _ => match field with
        | .dof a =>
          if actx = .none ∨ a.actx.map ActxArg.actx = some actx then (c.resampleIn f a 0).map .dof
          else .error .valueError
        | _ => .error .attributeError
    | none => match actx with
      | .actx i =>
        if f.shape = [] then (c.resampleIn f (c.emptyArr i f.dtype) 0).map .dof
        else (c.resampleAll f 0 (List.replicate f.shape.prod (c.emptyArr i f.dtype))).map fun l =>
          .objs f.shape (l.map some)
      | _ => .error .typeError

/-- `firedrake_fspace`, meshmode/interop/firedrake/connection.py:240-277, with the translation of the shape,
531-536: spaces of scalars, vectors and tensors; the value shape of the space, and a new function filled with zeros,
537-539. -/
def FfConn.newFunction [Zero K] (c : FfConn K) (shape : List Nat) : FfFun K :=
  match shape with
  | [] => ⟨true, c.family, c.degree, c.mesh, [], c.scalar, c.nnodes, fun _ _ => 0⟩
  | [n] => ⟨true, c.family, c.degree, c.mesh, [n], c.scalar, c.nnodes, fun _ _ => 0⟩
  | s => ⟨true, c.family, c.degree, c.mesh, s, c.scalar, c.nnodes, fun _ _ => 0⟩

/-- `fd_data[self.mm2fd_node_mapping] = …`, meshmode/interop/firedrake/connection.py:559-560, for one component: the
entries of the mapping in order. -/
def FfConn.assignCol [CommRing K] (c : FfConn K) (n : Nat) (x : GroupArr K) (col : Nat → K) : Nat → K :=
  ((List.range c.size.1).flatMap fun e => (List.range c.size.2).map fun k => (e, k)).foldl
    (fun col (p : Nat × Nat) => Function.update col (c.node n p.1 p.2)
      (∑ j ∈ Finset.range c.size.2, x.entry p.1 j * c.mm2fd p.2 j)) col

/-- `resample_and_reorder`, meshmode/interop/firedrake/connection.py:547-560. -/
def FfConn.resampleOut [CommRing K] (c : FfConn K) (f : FfFun K) (a : DofObj (GroupArr K)) (comp : Nat) :
    Except FfErr (FfFun K) :=
  if checkDofArray c.groups (asCheckArg a) ≠ .ok then .error .inconsistent
  else if c.inRange f.nnodes then
    match a.data[c.groupNr]? with
    | none => .error .indexError
    | some x => .ok { f with data := fun i q =>
        if q = comp then c.assignCol f.nnodes x (fun i => f.data i comp) i else f.data i q }
  else .error .indexError

/-- The loop over the components, meshmode/interop/firedrake/connection.py:563-575. -/
def FfConn.resampleOutAll [CommRing K] (c : FfConn K) :
    Nat → List (Option (DofObj (GroupArr K))) → FfFun K → Except FfErr (FfFun K)
  | _, [], f => .ok f
  | _, none :: _, _ => .error .typeError
  | comp, some a :: as, f => match c.resampleOut f a comp with
    | .error e => .error e
    | .ok f' => c.resampleOutAll (comp + 1) as f'

/-- The value shape of a field. Code: meshmode/interop/firedrake/connection.py:515-519. -/
def FfField.shape : FfField K → List Nat
  | .objs s _ => s
  | _ => []

/-- The arrays of a field in order. Code: meshmode/interop/firedrake/connection.py:563-575. -/
def FfField.arrays : FfField K → List (Option (DofObj (GroupArr K)))
  | .dof a => [some a]
  | .objs _ as => as
  | .other => []

/-- The end of `from_meshmode`, meshmode/interop/firedrake/connection.py:541-577.  An object array without axes is not
taken apart, and rejected by `check_dofarray_against_discr`. -/
def FfConn.store [CommRing K] (c : FfConn K) (field : FfField K) (f : FfFun K) : Except FfErr (FfFun K) :=
  match field with
  | .objs [] _ => .error .typeError
  | _ => c.resampleOutAll 0 field.arrays f

/-- `from_meshmode`, meshmode/interop/firedrake/connection.py:479-577. -/
def FfConn.fromMeshmode [CommRing K] (c : FfConn K) (field : FfField K) (out : Option (FfFun K)) :
    Except FfErr (FfFun K) :=
  match c.validateField field none none with
  | .error e => .error e
  | .ok _ => match out with
    | none => c.store field (c.newFunction field.shape)
    | some f => match c.validateFunction f (some field.shape) with
      | .error e => .error e
      | .ok _ => c.store field f

end

/-! ## Specification -/

section
variable {K : Type}

/-- All entries of the mapping are numbers of nodes. (Specification or proof vocabulary, no code.) -/
def FfConn.MapValid (c : FfConn K) (n : Nat) : Prop :=
  ∀ e < c.size.1, ∀ k < c.size.2, 0 ≤ c.mapping e k ∧ c.mapping e k < n

/-- No two degrees of freedom have the same entry of the mapping. (Specification or proof vocabulary, no code.) -/
def FfConn.MapInj (c : FfConn K) : Prop :=
  ∀ e < c.size.1, ∀ k < c.size.2, ∀ e' < c.size.1, ∀ k' < c.size.2, c.mapping e k = c.mapping e' k' → e = e' ∧ k = k'

/-- The product of the matrices is the identity. (Specification or proof vocabulary, no code.) -/
def FfInverse [CommRing K] (n : Nat) (A B : Nat → Nat → K) : Prop :=
  ∀ k < n, ∀ l < n, ∑ j ∈ Finset.range n, A k j * B j l = if k = l then 1 else 0

/-- The function is on the mesh of the connection, of its family and degree.
(Specification or proof vocabulary, no code.) -/
def FfConn.Fits (c : FfConn K) (f : FfFun K) : Prop :=
  f.isFunction = true ∧ f.family = c.family ∧ f.degree = c.degree ∧ f.mesh = c.mesh

/-- A DOF array on the discretization of the connection. (Specification or proof vocabulary, no code.) -/
def FfConn.OnDiscr (c : FfConn K) (a : DofObj (GroupArr K)) : Prop :=
  a.actx ≠ none ∧ a.data.map (fun x => (x.nrows, x.ncols)) = c.groups

/-- A field on the discretization: a DOF array, or an object array of them with one or more axes.
(Specification or proof vocabulary, no code.) -/
def FfConn.FieldOn (c : FfConn K) : FfField K → Prop
  | .dof a => c.OnDiscr a
  | .objs s as => s ≠ [] ∧ as.length = s.prod ∧ ∀ o ∈ as, ∃ a, o = some a ∧ c.OnDiscr a
  | .other => False

/-- `r` is `a` with the values of component `comp` of `f` in the connected group.
(Specification or proof vocabulary, no code.) -/
structure FfConn.Received [CommRing K] (c : FfConn K) (f : FfFun K) (comp : Nat) (a r : DofObj (GroupArr K)) :
    Prop where
  actx : r.actx = a.actx
  length : r.data.length = a.data.length
  others : ∀ (g : Nat), g ≠ c.groupNr → r.data[g]? = a.data[g]?
  values : ∀ y, a.data[c.groupNr]? = some y → ∃ x, r.data[c.groupNr]? = some x ∧ x.nrows = y.nrows ∧
    x.ncols = y.ncols ∧ x.dtype = y.dtype ∧ ∀ e < c.size.1, ∀ k < c.size.2,
      x.entry e k = ∑ j ∈ Finset.range c.size.2, c.fd2mm k j * f.data (c.mapping e j).toNat comp

/-! ## Lemmas -/

theorem ffIndex_valid {n : Nat} {i : Int} (h0 : 0 ≤ i) (h1 : i < n) : ffIndex n i = some i.toNat := by
  simp [ffIndex, h0, h1]

theorem FfConn.node_valid {c : FfConn K} {n e k : Nat} (h : c.MapValid n) (he : e < c.size.1) (hk : k < c.size.2) :
    c.node n e k = (c.mapping e k).toNat := by
  obtain ⟨h0, h1⟩ := h e he k hk
  simp [FfConn.node, ffIndex_valid h0 h1]

theorem FfConn.inRange_valid {c : FfConn K} {n : Nat} (h : c.MapValid n) : c.inRange n = true := by
  simp only [FfConn.inRange, List.all_eq_true, List.mem_range]
  intro e he k hk
  obtain ⟨h0, h1⟩ := h e he k hk
  simp [ffIndex_valid h0 h1]

theorem FfConn.assignCol_mapped [CommRing K] {c : FfConn K} {n : Nat} (h : c.MapValid n) (hinj : c.MapInj)
    (x : GroupArr K) (col : Nat → K) {e k : Nat} (he : e < c.size.1) (hk : k < c.size.2) :
    c.assignCol n x col (c.mapping e k).toNat = ∑ j ∈ Finset.range c.size.2, x.entry e j * c.mm2fd k j := by
  unfold FfConn.assignCol
  refine (foldl_update _ (fun p : Nat × Nat => c.node n p.1 p.2)
    (fun p => ∑ j ∈ Finset.range c.size.2, x.entry p.1 j * c.mm2fd p.2 j) col _).2 (e, k) ?_ ?_ ?_
  · simp [he, hk]
  · exact FfConn.node_valid h he hk
  · rintro ⟨e', k'⟩ hm heq
    simp only [List.mem_flatMap, List.mem_range, List.mem_map, Prod.mk.injEq] at hm
    obtain ⟨e2, he', k2, hk', rfl, rfl⟩ := hm
    simp only [FfConn.node_valid h he' hk'] at heq
    have h1 := h e he k hk
    have h2 := h e2 he' k2 hk'
    obtain ⟨rfl, rfl⟩ := hinj e2 he' k2 hk' e he k hk (by omega)
    rfl

theorem FfConn.assignCol_unmapped [CommRing K] {c : FfConn K} {n : Nat} (h : c.MapValid n)
    (x : GroupArr K) (col : Nat → K) {i : Nat}
    (hi : ∀ e < c.size.1, ∀ k < c.size.2, c.mapping e k ≠ i) : c.assignCol n x col i = col i := by
  unfold FfConn.assignCol
  refine (foldl_update _ (fun p : Nat × Nat => c.node n p.1 p.2)
    (fun p => ∑ j ∈ Finset.range c.size.2, x.entry p.1 j * c.mm2fd p.2 j) col i).1 ?_
  rintro ⟨e, k⟩ hm heq
  simp only [List.mem_flatMap, List.mem_range, List.mem_map, Prod.mk.injEq] at hm
  obtain ⟨e2, he', k2, hk', rfl, rfl⟩ := hm
  simp only [FfConn.node_valid h he' hk'] at heq
  have h1 := h e2 he' k2 hk'
  exact hi e2 he' k2 hk' (by omega)

theorem FfConn.onDiscr_check {c : FfConn K} {a : DofObj (GroupArr K)} (h : c.OnDiscr a) :
    checkDofArray c.groups (asCheckArg a) = .ok := by
  rw [C38_exact, asCheckArg, ← h.2]
  simp [Function.comp_def]

theorem FfConn.onDiscr_group {c : FfConn K} {a : DofObj (GroupArr K)} (h : c.OnDiscr a)
    (hg : c.groupNr < c.groups.length) :
    ∃ x, a.data[c.groupNr]? = some x ∧ x.nrows = c.size.1 ∧ x.ncols = c.size.2 := by
  have hl : c.groupNr < a.data.length := by
    have := congrArg List.length h.2
    simp at this
    omega
  have h1 := congrArg (fun l => l[c.groupNr]?) h.2
  simp only [List.getElem?_map, List.getElem?_eq_getElem hl, Option.map_some, List.getElem?_eq_getElem hg,
    Option.some.injEq] at h1
  have h2 : c.size = c.groups[c.groupNr] := by
    simp [FfConn.size, List.getD_eq_getElem?_getD, List.getElem?_eq_getElem hg]
  refine ⟨_, List.getElem?_eq_getElem hl, ?_, ?_⟩
  · rw [h2, ← h1]
  · rw [h2, ← h1]

theorem FfConn.onDiscr_checkArr {c : FfConn K} {a : DofObj (GroupArr K)} (h : c.OnDiscr a)
    (hg : c.groupNr < c.groups.length) : c.checkArr none (some a) = .ok () := by
  obtain ⟨x, hx, h1, h2⟩ := FfConn.onDiscr_group h hg
  have hl : a.data.length = c.groups.length := by
    have := congrArg List.length h.2
    simpa using this
  simp [FfConn.checkArr, h.1, hl, hx, h1, h2]

theorem FfConn.checkArrs_ok {c : FfConn K} {t : Option DType} {l : List (Option (DofObj (GroupArr K)))} :
    c.checkArrs t l = .ok () ↔ ∀ o ∈ l, c.checkArr t o = .ok () := by
  induction l with
  | nil => simp [FfConn.checkArrs]
  | cons o l ih =>
    rw [FfConn.checkArrs, List.forall_mem_cons, ← ih]
    cases c.checkArr t o <;> simp

theorem FfConn.resampleIn_ok [CommRing K] {c : FfConn K} {f : FfFun K} (h : c.MapValid f.nnodes)
    (a : DofObj (GroupArr K)) (comp : Nat) : ∃ r, c.resampleIn f a comp = .ok r ∧ c.Received f comp a r := by
  refine ⟨_, if_pos (FfConn.inRange_valid h), rfl, by simp, ?_, ?_⟩
  · intro g hg
    rw [List.getElem?_modify]
    simp [Ne.symm hg]
  · intro y hy
    have hmod : ∀ F : GroupArr K → GroupArr K, (a.data.modify c.groupNr F)[c.groupNr]? = some (F y) := by
      intro F
      rw [List.getElem?_modify, hy]
      simp
    refine ⟨_, hmod _, rfl, rfl, rfl, ?_⟩
    intro e he k hk
    show (∑ j ∈ Finset.range c.size.2, f.data (c.node f.nnodes e j) comp * c.fd2mm k j) = _
    refine Finset.sum_congr rfl fun j hj => ?_
    rw [FfConn.node_valid h he (Finset.mem_range.1 hj), mul_comm]

theorem FfConn.resampleAll_ok [CommRing K] {c : FfConn K} {f : FfFun K} (h : c.MapValid f.nnodes)
    (l : List (DofObj (GroupArr K))) (comp : Nat) :
    ∃ rs, c.resampleAll f comp l = .ok rs ∧ rs.length = l.length ∧
      ∀ (j : Nat) a, l[j]? = some a → ∃ r, rs[j]? = some r ∧ c.Received f (comp + j) a r := by
  induction l generalizing comp with
  | nil => exact ⟨[], rfl, rfl, by simp⟩
  | cons a l ih =>
    obtain ⟨r, hr, hr'⟩ := FfConn.resampleIn_ok h a comp
    obtain ⟨rs, hrs, hl, hrs'⟩ := ih (comp + 1)
    refine ⟨r :: rs, by simp [FfConn.resampleAll, hr, hrs], by simp [hl], ?_⟩
    rintro (_ | j) b hb
    · simp only [List.getElem?_cons_zero, Option.some.injEq] at hb
      subst hb
      exact ⟨r, rfl, hr'⟩
    · rw [List.getElem?_cons_succ] at hb
      obtain ⟨r', h1, h2⟩ := hrs' j b hb
      exact ⟨r', by simpa using h1, by rw [show comp + (j + 1) = comp + 1 + j by omega]; exact h2⟩

theorem FfConn.resampleOutAll_ok [CommRing K] {c : FfConn K} (hg : c.groupNr < c.groups.length)
    (l : List (Option (DofObj (GroupArr K)))) (comp : Nat) {f : FfFun K} (h : c.MapValid f.nnodes)
    (hl : ∀ o ∈ l, ∃ a, o = some a ∧ c.OnDiscr a) :
    ∃ f', c.resampleOutAll comp l f = .ok f' ∧ f' = { f with data := f'.data } ∧
      (∀ i q, q < comp ∨ comp + l.length ≤ q → f'.data i q = f.data i q) ∧
      ∀ (j : Nat) a x, l[j]? = some (some a) → a.data[c.groupNr]? = some x → ∀ i,
        f'.data i (comp + j) = c.assignCol f.nnodes x (fun i => f.data i (comp + j)) i := by
  induction l generalizing comp f with
  | nil => exact ⟨f, rfl, rfl, fun _ _ _ => rfl, by simp⟩
  | cons o l ih =>
    obtain ⟨a, rfl, ha⟩ := hl o List.mem_cons_self
    obtain ⟨x, hx, _, _⟩ := FfConn.onDiscr_group ha hg
    obtain ⟨f', hf, hmeta, hout, hin⟩ := ih (comp + 1) (f := { f with
      data := fun i q => if q = comp then c.assignCol f.nnodes x (fun i => f.data i comp) i else f.data i q }) h
      fun o ho => hl o (List.mem_cons_of_mem _ ho)
    have hstep : c.resampleOut f a comp = .ok { f with
        data := fun i q => if q = comp then c.assignCol f.nnodes x (fun i => f.data i comp) i else f.data i q } := by
      rw [FfConn.resampleOut, if_neg (by simp [FfConn.onDiscr_check ha]), if_pos (FfConn.inRange_valid h), hx]
    refine ⟨f', by rw [FfConn.resampleOutAll, hstep]; exact hf, hmeta, ?_, ?_⟩
    · intro i q hq
      rw [hout i q (by simp at hq; omega)]
      simp only
      rw [if_neg (by simp at hq; omega)]
    · rintro (_ | j) b y hb hy i
      · simp only [List.getElem?_cons_zero, Option.some.injEq] at hb
        subst hb
        rw [hx] at hy
        obtain rfl := Option.some.inj hy
        rw [Nat.add_zero, hout i comp (Or.inl (Nat.lt_succ_self _))]
        simp
      · rw [List.getElem?_cons_succ] at hb
        have := hin j b y hb hy i
        rw [show comp + (j + 1) = comp + 1 + j by omega, this]
        simp only
        rw [show (fun i => if comp + 1 + j = comp then c.assignCol f.nnodes x (fun i => f.data i comp) i
            else f.data i (comp + 1 + j)) = fun i => f.data i (comp + 1 + j) from by
          funext i'
          rw [if_neg (by omega)]]

theorem FfConn.fieldOn_valid {c : FfConn K} {field : FfField K} (h : c.FieldOn field)
    (hg : c.groupNr < c.groups.length) : c.validateField field none none = .ok () := by
  cases field with
  | dof a => simpa [FfConn.validateField] using FfConn.onDiscr_checkArr h hg
  | objs s as =>
    simp only [FfConn.validateField, ne_eq, not_true_eq_false, false_and, if_false]
    rw [FfConn.checkArrs_ok]
    rintro o ho
    obtain ⟨a, rfl, ha⟩ := h.2.2 o ho
    exact FfConn.onDiscr_checkArr ha hg
  | other => exact h.elim

theorem FfConn.fieldOn_arrays {c : FfConn K} {field : FfField K} (h : c.FieldOn field) :
    field.arrays.length = field.shape.prod ∧ (∀ o ∈ field.arrays, ∃ a, o = some a ∧ c.OnDiscr a) := by
  cases field with
  | dof a => exact ⟨rfl, fun o ho => ⟨a, by simpa [FfField.arrays] using ho, h⟩⟩
  | objs s as => exact ⟨h.2.1, h.2.2⟩
  | other => exact h.elim

theorem FfConn.fieldOn_store [CommRing K] {c : FfConn K} {field : FfField K} (h : c.FieldOn field) (f : FfFun K) :
    c.store field f = c.resampleOutAll 0 field.arrays f := by
  cases field with
  | dof a => rfl
  | objs s as =>
    cases s with
    | nil => exact absurd rfl h.1
    | cons => rfl
  | other => exact h.elim

theorem FfConn.validateFunction_ok {c : FfConn K} {f : FfFun K} {s : Option (List Nat)} :
    c.validateFunction f s = .ok () ↔ c.Fits f ∧ (s = none ∨ s = some f.shape) := by
  unfold FfConn.validateFunction FfConn.Fits
  cases f.isFunction
  · simp
  · by_cases h1 : f.family = c.family <;> by_cases h2 : f.degree = c.degree <;> by_cases h3 : f.mesh = c.mesh <;>
      simp [h1, h2, h3]
    cases s with
    | none => simp
    | some s =>
      by_cases h4 : f.shape = s
      · simp [h4]
      · simp [h4, Ne.symm h4]

end

/-! ## Properties: arguments -/

section
variable {K : Type}

/-- C101: the constructor accepts exactly what it documents, with unique entries of the mapping. -/
theorem C101_init_iff (a : FfInit) (g : Nat) : ffInit a = .ok g ↔
    a.isDiscr = true ∧ a.isSpace = true ∧ a.isArray = true ∧
    (a.groupNr = .int g ∨ (a.groupNr = .none ∧ a.groups.length = 1 ∧ g = 0)) ∧
    ∃ n m, a.groups[g]? = some (true, n, m) ∧ a.isDG = true ∧ a.shape = [n, m] ∧ a.dtype = a.nodeDtype ∧
      a.entries.Nodup := by
  have hgrp : ∀ (i : Int), ffInitGroup a i = .ok g ↔ i = g ∧ ∃ n m, a.groups[g]? = some (true, n, m) ∧
      a.isDG = true ∧ a.shape = [n, m] ∧ a.dtype = a.nodeDtype ∧ a.entries.Nodup := by
    intro i
    have hdup : a.entries.dedup.length = a.entries.length ↔ a.entries.Nodup := by
      rw [← List.dedup_eq_self]
      exact ⟨fun h => (List.dedup_sublist _).eq_of_length h, fun h => by rw [h]⟩
    unfold ffInitGroup
    by_cases hi : 0 ≤ i
    · rw [if_pos hi]
      obtain ⟨k, rfl⟩ := Int.eq_ofNat_of_zero_le hi
      simp only [Int.toNat_natCast, Int.natCast_inj]
      rcases hk : a.groups[k]? with _ | ⟨b, n, m⟩
      · simp only [reduceCtorEq, false_iff, not_and, not_exists]
        rintro rfl n m h
        rw [hk] at h
        simp at h
      · have hlt := (List.getElem?_eq_some_iff.1 hk).1
        simp only
        rw [if_neg (by omega)]
        cases b
        · simp only [if_pos, reduceCtorEq, false_iff, not_and, not_exists]
          rintro rfl n m h
          rw [hk] at h
          simp at h
        · cases hdg : a.isDG
          · simp
          · by_cases h1 : a.shape = [n, m] <;> by_cases h2 : a.dtype = a.nodeDtype <;> by_cases h3 : a.entries.Nodup <;>
              simp only [h1, h2, h3, hdup, not_true_eq_false, not_false_eq_true, if_true, if_false, ne_eq,
                reduceCtorEq, Bool.true_eq_false, Except.ok.injEq, and_true, and_false, exists_const, false_iff]
            · constructor
              · rintro rfl
                exact ⟨rfl, n, m, hk, trivial, rfl⟩
              · exact fun h => h.1
            all_goals first
              | (simp; done)
              | (rintro ⟨rfl, n', m', h, _, h'⟩
                 rw [hk] at h
                 simp only [Option.some.injEq, Prod.mk.injEq, true_and] at h
                 exact h1 (by rw [h', h.1, h.2]))
    · rw [if_neg hi]
      have : ¬ (i = (g : Int)) := by omega
      simp only [this, false_and, iff_false]
      split
      · simp
      · rw [if_pos (Or.inl (by omega))]
        simp
  unfold ffInit
  cases a.isDiscr
  · simp
  cases a.isSpace
  · simp
  cases a.isArray
  · simp
  simp only [Bool.true_eq_false, if_false, true_and]
  cases hn : a.groupNr with
  | none =>
    by_cases h1 : a.groups.length = 1
    · simp only [h1, ne_eq, not_true_eq_false, if_false, hgrp, reduceCtorEq, false_or, true_and]
      refine and_congr_left fun _ => ?_
      omega
    · simp [h1]
  | int i =>
    simp only [hgrp, FfGroupArg.int.injEq, reduceCtorEq, false_and, or_false]
  | other => simp

/-- C101: a number that is too large for the groups raises `IndexError`, where `ValueError` is documented; one that is
negative raises `ValueError` or `IndexError`. -/
theorem C101_init_range {a : FfInit} (h1 : a.isDiscr = true) (h2 : a.isSpace = true) (h3 : a.isArray = true)
    {i : Int} (h4 : a.groupNr = .int i) :
    (a.groups.length ≤ i → ffInit a = .error .indexError) ∧
    (i < 0 → -(a.groups.length : Int) ≤ i → ffInit a = .error .valueError) ∧
    (i < -(a.groups.length : Int) → ffInit a = .error .indexError) := by
  simp only [ffInit, h1, h2, h3, h4, Bool.true_eq_false, if_false, ffInitGroup]
  refine ⟨fun h => ?_, fun h h' => ?_, fun h => ?_⟩
  · rw [if_pos (by omega), List.getElem?_eq_none (by omega)]
  · rw [if_neg (by omega), if_pos (by omega), List.getElem?_eq_getElem (by omega)]
    simp only
    rw [if_pos (Or.inl h)]
  · rw [if_neg (by omega), if_neg (by omega)]

/-- C101: the check of unique entries makes the mapping one-to-one. -/
theorem C101_init_injective {a : FfInit} {g : Nat} (h : ffInit a = .ok g) {c : FfConn K}
    (he : a.entries = (List.range c.size.1).flatMap fun e => (List.range c.size.2).map fun k => c.mapping e k) :
    c.MapInj := by
  obtain ⟨_, _, _, _, _, _, _, _, _, _, hnd⟩ := (C101_init_iff a g).1 h
  rw [he, List.nodup_flatMap] at hnd
  intro e hel k hk e' hel' k' hk' heq
  have hee : e = e' := by
    by_contra hne
    have hp := hnd.2
    rw [List.pairwise_iff_getElem] at hp
    rcases Nat.lt_or_gt_of_ne hne with hlt | hlt
    · refine hp e e' (by simpa using hel) (by simpa using hel') hlt (a := c.mapping e k) ?_ ?_
      · simpa using ⟨k, hk, rfl⟩
      · simpa using ⟨k', hk', heq.symm⟩
    · refine hp e' e (by simpa using hel') (by simpa using hel) hlt (a := c.mapping e k) ?_ ?_
      · simpa using ⟨k', hk', heq.symm⟩
      · simpa using ⟨k, hk, rfl⟩
  subst hee
  exact ⟨rfl, List.inj_on_of_nodup_map (hnd.1 e (by simpa using hel)) (by simpa using hk) (by simpa using hk') heq⟩

/-- C101: a function is accepted exactly if it is one, on the mesh of the connection, of its family and degree. -/
theorem C101_function_iff (c : FfConn K) (f : FfFun K) (s : Option (List Nat)) :
    c.validateFunction f s = .ok () ↔ c.Fits f ∧ (s = none ∨ s = some f.shape) := FfConn.validateFunction_ok

/-- C101: a field is accepted exactly if it is a DOF array or an object array of DOF arrays, of the given shape, with
array contexts, the number of groups of the discretization, the right size of the connected group, and the given data
type. -/
theorem C101_field_iff {c : FfConn K} (hg : c.groupNr < c.groups.length) (field : FfField K)
    (s : Option (List Nat)) (t : Option DType) :
    c.validateField field s t = .ok () ↔
      ((∃ a, field = .dof a) ∨ ∃ sh as, field = .objs sh as) ∧ (s = none ∨ s = some field.shape) ∧
      ∀ o ∈ field.arrays, ∃ a x, o = some a ∧ a.actx ≠ none ∧ a.data.length = c.groups.length ∧
        a.data[c.groupNr]? = some x ∧ x.nrows = c.size.1 ∧ x.ncols = c.size.2 ∧
        ∀ u, t = some u → ∀ y ∈ a.data, y.dtype = u := by
  have harr : ∀ o, c.checkArr t o = .ok () ↔ ∃ a x, o = some a ∧ a.actx ≠ none ∧ a.data.length = c.groups.length ∧
        a.data[c.groupNr]? = some x ∧ x.nrows = c.size.1 ∧ x.ncols = c.size.2 ∧
        ∀ u, t = some u → ∀ y ∈ a.data, y.dtype = u := by
    rintro (_ | a)
    · simp [FfConn.checkArr]
    · simp only [FfConn.checkArr]
      by_cases h1 : a.actx = none
      · simp [h1]
      by_cases h2 : a.data.length = c.groups.length
      · rw [if_neg h1, if_neg (by simpa using h2)]
        have hx := List.getElem?_eq_getElem (show c.groupNr < a.data.length by omega)
        rw [hx]
        generalize a.data[c.groupNr] = x at hx ⊢
        simp only
        by_cases h3 : (x.nrows, x.ncols) = c.size
        · rw [if_neg (by simpa using h3)]
          have h3' : x.nrows = c.size.1 ∧ x.ncols = c.size.2 := by rw [← h3]; exact ⟨rfl, rfl⟩
          cases t with
          | none => exact ⟨fun _ => ⟨a, x, rfl, h1, h2, hx, h3'.1, h3'.2, by simp⟩, fun _ => rfl⟩
          | some t =>
            have hne : a.data ≠ [] := by rintro h; rw [h] at hx; simp at hx
            obtain ⟨y, ys, hy⟩ := List.exists_cons_of_ne_nil hne
            simp only [entryDtype, hy, List.map_cons, List.all_map, List.all_eq_true, Function.comp_apply,
              beq_iff_eq]
            by_cases h4 : ∀ z ∈ ys, z.dtype = y.dtype
            · rw [if_pos h4]
              simp only
              by_cases h5 : y.dtype = t
              · subst h5
                simp only [ne_eq, not_true_eq_false, if_false, true_iff]
                refine ⟨a, x, rfl, h1, h2, hx, h3'.1, h3'.2, ?_⟩
                rintro u ⟨⟩ z hz
                rw [hy] at hz
                rcases List.mem_cons.1 hz with rfl | hz
                · rfl
                · exact h4 z hz
              · simp only [ne_eq, h5, not_false_eq_true, if_true, reduceCtorEq, false_iff]
                rintro ⟨b, _, hb, _, _, _, _, _, h6⟩
                obtain rfl := Option.some.inj hb
                exact h5 (h6 t rfl y (by rw [hy]; simp))
            · rw [if_neg h4]
              simp only [reduceCtorEq, false_iff]
              rintro ⟨b, _, hb, _, _, _, _, _, h6⟩
              obtain rfl := Option.some.inj hb
              refine h4 fun z hz => ?_
              rw [h6 t rfl z (by rw [hy]; simp [hz]), h6 t rfl y (by rw [hy]; simp)]
        · rw [if_pos (by simpa using h3)]
          simp only [reduceCtorEq, false_iff]
          rintro ⟨b, x', hb, _, _, hx', h5, h6, _⟩
          obtain rfl := Option.some.inj hb
          rw [hx] at hx'
          obtain rfl := Option.some.inj hx'
          exact h3 (by rw [h5, h6])
      · rw [if_neg h1, if_pos (by simpa using h2)]
        simp only [reduceCtorEq, false_iff]
        rintro ⟨b, _, hb, _, h5, _⟩
        obtain rfl := Option.some.inj hb
        exact h2 h5
  cases field with
  | dof a =>
    simp only [FfConn.validateField, FfField.shape, FfField.arrays, List.mem_singleton, forall_eq, ← harr]
    by_cases h : s ≠ none ∧ s ≠ some []
    · rw [if_pos h]
      simp only [reduceCtorEq, false_iff]
      rintro ⟨_, h1 | h1, _⟩
      · exact h.1 h1
      · exact h.2 h1
    · rw [if_neg h]
      have : s = none ∨ s = some [] := by
        by_contra hc
        exact h (not_or.1 hc)
      simp [this]
  | objs sh as =>
    simp only [FfConn.validateField, FfField.shape, FfField.arrays, ← harr, ← FfConn.checkArrs_ok]
    by_cases h : s ≠ none ∧ s ≠ some sh
    · rw [if_pos h]
      simp only [reduceCtorEq, false_iff]
      rintro ⟨_, h1 | h1, _⟩
      · exact h.1 h1
      · exact h.2 h1
    · rw [if_neg h]
      have : s = none ∨ s = some sh := by
        by_contra hc
        exact h (not_or.1 hc)
      simp [this]
  | other => simp [FfConn.validateField]

end

/-! ## Properties: transfer -/

section
variable {K : Type} [CommRing K]

/-- C101: `from_firedrake` without `out` works exactly for accepted functions and an array context, and gives a field of
the shape of the function whose components are its components. -/
theorem C101_from_firedrake {c : FfConn K} (hg : c.groupNr < c.groups.length) {f : FfFun K}
    (hv : c.MapValid f.nnodes) (actx : ActxArg) :
    ((∃ r, c.fromFiredrake f none actx = .ok r) ↔ c.Fits f ∧ ∃ i, actx = .actx i) ∧
    ∀ r, c.fromFiredrake f none actx = .ok r → r.shape = f.shape ∧ c.FieldOn r ∧
      ∀ comp < f.shape.prod, ∃ a i, r.arrays[comp]? = some (some a) ∧ actx = .actx i ∧
        c.Received f comp (c.emptyArr i f.dtype) a := by
  have hon : ∀ i comp a, c.Received f comp (c.emptyArr i f.dtype) a → c.OnDiscr a := by
    intro i comp a h
    refine ⟨by rw [h.actx]; simp [FfConn.emptyArr], ?_⟩
    apply List.ext_getElem?
    intro g
    rw [List.getElem?_map]
    have hbase : (c.emptyArr i f.dtype).data[g]? =
        (c.groups[g]?).map fun q => ⟨q.1, q.2, f.dtype, fun _ _ => 0⟩ := by
      simp [FfConn.emptyArr]
    by_cases hgg : g = c.groupNr
    · subst hgg
      rw [List.getElem?_eq_getElem hg, Option.map_some] at hbase
      obtain ⟨x, h1, h2, h3, _⟩ := h.values _ hbase
      rw [h1, List.getElem?_eq_getElem hg]
      simp [h2, h3]
    · rw [h.others g hgg, hbase]
      cases c.groups[g]? <;> rfl
  by_cases hfit : c.Fits f
  · have hval : c.validateFunction f none = .ok () := FfConn.validateFunction_ok.2 ⟨hfit, Or.inl rfl⟩
    cases actx with
    | none => simp [FfConn.fromFiredrake, hval]
    | other => simp [FfConn.fromFiredrake, hval]
    | actx i =>
      by_cases hs : f.shape = []
      · obtain ⟨a, ha, ha'⟩ := FfConn.resampleIn_ok hv (c.emptyArr i f.dtype) 0
        have hr : c.fromFiredrake f none (.actx i) = .ok (.dof a) := by
          simp only [FfConn.fromFiredrake, hval, hs, if_true, ha]
          rfl
        refine ⟨⟨fun _ => ⟨hfit, i, rfl⟩, fun _ => ⟨_, hr⟩⟩, ?_⟩
        intro r h
        rw [hr] at h
        obtain rfl := Except.ok.inj h
        refine ⟨hs.symm, hon i 0 a ha', ?_⟩
        intro comp hcomp
        rw [hs, List.prod_nil] at hcomp
        obtain rfl : comp = 0 := by omega
        exact ⟨a, i, rfl, rfl, ha'⟩
      · obtain ⟨l, hl, hlen, hl'⟩ :=
          FfConn.resampleAll_ok hv (List.replicate f.shape.prod (c.emptyArr i f.dtype)) 0
        rw [List.length_replicate] at hlen
        have hr : c.fromFiredrake f none (.actx i) = .ok (.objs f.shape (l.map some)) := by
          simp only [FfConn.fromFiredrake, hval, hs, if_false, hl]
          rfl
        have hcomp : ∀ comp < f.shape.prod, ∃ a, l[comp]? = some a ∧ c.Received f comp (c.emptyArr i f.dtype) a := by
          intro comp hc
          obtain ⟨a, h1, h2⟩ := hl' comp (c.emptyArr i f.dtype) (by simp [hc])
          exact ⟨a, h1, by rw [Nat.zero_add] at h2; exact h2⟩
        refine ⟨⟨fun _ => ⟨hfit, i, rfl⟩, fun _ => ⟨_, hr⟩⟩, ?_⟩
        intro r h
        rw [hr] at h
        obtain rfl := Except.ok.inj h
        refine ⟨rfl, ⟨hs, by simpa using hlen, ?_⟩, ?_⟩
        · intro o ho
          obtain ⟨a, ha, rfl⟩ := List.mem_map.1 ho
          obtain ⟨k, hk⟩ := List.mem_iff_getElem?.1 ha
          obtain ⟨b, hb, hb'⟩ := hcomp k (hlen ▸ (List.getElem?_eq_some_iff.1 hk).1)
          rw [hk] at hb
          obtain rfl := Option.some.inj hb
          exact ⟨a, rfl, hon i k a hb'⟩
        · intro comp hc
          obtain ⟨a, h1, h2⟩ := hcomp comp hc
          exact ⟨a, i, by simp [FfField.arrays, h1], rfl, h2⟩
  · have hval : ∀ u, c.validateFunction f none ≠ .ok u := fun u h =>
      hfit (FfConn.validateFunction_ok.1 h).1
    have hr : ∀ r, c.fromFiredrake f none actx ≠ .ok r := by
      intro r h
      unfold FfConn.fromFiredrake at h
      rcases hq : c.validateFunction f none with e | u
      · simp [hq] at h
      · exact hval u hq
    exact ⟨⟨fun ⟨r, h⟩ => absurd h (hr r), fun h => absurd h.1 hfit⟩, fun r h => absurd h (hr r)⟩

/-- C101: `from_firedrake` with a DOF array as `out` works exactly for scalar functions, if the array has the data type
of the function, the right size, and the array context given, if one is given; the array then has the values. -/
theorem C101_out_partial {c : FfConn K} {f : FfFun K} (hv : c.MapValid f.nnodes) (actx : ActxArg)
    (a : DofObj (GroupArr K)) :
    ((∃ r, c.fromFiredrake f (some (.dof a)) actx = .ok r) ↔ c.Fits f ∧
      c.validateField (.dof a) (some f.shape) (some f.dtype) = .ok () ∧
      (actx = .none ∨ ∃ i, a.actx = some i ∧ actx = .actx i)) ∧
    ∀ r, c.fromFiredrake f (some (.dof a)) actx = .ok r →
      f.shape = [] ∧ ∃ b, r = .dof b ∧ c.Received f 0 a b := by
  obtain ⟨b, hb, hb'⟩ := FfConn.resampleIn_ok hv a 0
  have hact : (actx = .none ∨ a.actx.map ActxArg.actx = some actx) ↔
      (actx = .none ∨ ∃ i, a.actx = some i ∧ actx = .actx i) := by
    rw [Option.map_eq_some_iff]
    refine or_congr_right (exists_congr fun i => and_congr_right fun _ => eq_comm)
  unfold FfConn.fromFiredrake
  rcases hq : c.validateFunction f none with e | u
  · have : ¬ c.Fits f := fun h => by
      rw [FfConn.validateFunction_ok.2 ⟨h, Or.inl rfl⟩] at hq
      simp at hq
    simp [this]
  · have hfit : c.Fits f := (FfConn.validateFunction_ok.1 hq).1
    simp only [hfit, true_and]
    rcases hw : c.validateField (.dof a) (some f.shape) (some f.dtype) with e | u
    · simp
    · simp only [true_and]
      by_cases h3 : actx = .none ∨ ∃ i, a.actx = some i ∧ actx = .actx i
      · rw [if_pos (hact.2 h3), hb]
        refine ⟨⟨fun _ => h3, fun _ => ⟨_, rfl⟩⟩, ?_⟩
        intro r hr
        obtain rfl := Except.ok.inj hr
        refine ⟨?_, b, rfl, hb'⟩
        by_contra hs
        rw [FfConn.validateField, if_pos ⟨by simp, by simpa using hs⟩] at hw
        simp at hw
      · rw [if_neg (fun h => h3 (hact.1 h))]
        simp [h3]

/-- C101: an object array as `out` never works; if it is accepted, `AttributeError` is raised. -/
theorem C101_object_out (c : FfConn K) (f : FfFun K) (shape : List Nat) (as : List (Option (DofObj (GroupArr K))))
    (actx : ActxArg) :
    (∀ r, c.fromFiredrake f (some (.objs shape as)) actx ≠ .ok r) ∧
    (c.Fits f → c.validateField (.objs shape as) (some f.shape) (some f.dtype) = .ok () →
      c.fromFiredrake f (some (.objs shape as)) actx = .error .attributeError) := by
  unfold FfConn.fromFiredrake
  constructor
  · intro r h
    split at h
    · simp at h
    · simp only at h
      split at h <;> simp at h
  · intro h1 h2
    simp only [FfConn.validateFunction_ok.2 ⟨h1, Or.inl rfl⟩, h2]

/-- C101: `from_meshmode` works for all fields on the discretization.  Without `out` it makes a function of the shape of
the field; given functions have to fit.  Each component holds the values of its array at the nodes that are mapped, and
the old values (or zeros) at others. -/
theorem C101_from_meshmode {c : FfConn K} (hg : c.groupNr < c.groups.length) (hinj : c.MapInj) {field : FfField K}
    (hf : c.FieldOn field) {out : Option (FfFun K)}
    (hout : ∀ f, out = some f → c.Fits f ∧ f.shape = field.shape)
    (hv : c.MapValid (out.getD (c.newFunction field.shape)).nnodes) :
    ∃ f', c.fromMeshmode field out = .ok f' ∧ c.Fits f' ∧ f'.shape = field.shape ∧
      f'.nnodes = (out.getD (c.newFunction field.shape)).nnodes ∧
      (∀ (i q : Nat), (q < field.shape.prod → ∀ e < c.size.1, ∀ k < c.size.2, c.mapping e k ≠ i) →
        f'.data i q = (out.map fun f => f.data i q).getD 0) ∧
      ∀ (q : Nat) a x, field.arrays[q]? = some (some a) → a.data[c.groupNr]? = some x →
        ∀ e < c.size.1, ∀ k < c.size.2, f'.data (c.mapping e k).toNat q =
          ∑ j ∈ Finset.range c.size.2, c.mm2fd k j * x.entry e j := by
  obtain ⟨hlen, harr⟩ := FfConn.fieldOn_arrays hf
  have hnew : (c.newFunction field.shape) =
      ⟨true, c.family, c.degree, c.mesh, field.shape, c.scalar, c.nnodes, fun _ _ => 0⟩ := by
    unfold FfConn.newFunction
    split <;> simp_all
  obtain ⟨f', h1, hmeta, h2, h3⟩ := FfConn.resampleOutAll_ok hg field.arrays 0 hv harr
  have hfit : c.Fits (out.getD (c.newFunction field.shape)) ∧
      (out.getD (c.newFunction field.shape)).shape = field.shape := by
    cases out with
    | none => rw [Option.getD_none, hnew]; exact ⟨⟨rfl, rfl, rfl, rfl⟩, rfl⟩
    | some f => exact hout f rfl
  have hres : c.fromMeshmode field out = .ok f' := by
    unfold FfConn.fromMeshmode
    rw [FfConn.fieldOn_valid hf hg]
    simp only
    cases out with
    | none => simp only [FfConn.fieldOn_store hf]; exact h1
    | some f =>
      have : c.validateFunction f (some field.shape) = .ok () :=
        FfConn.validateFunction_ok.2 ⟨hfit.1, Or.inr (by rw [← hfit.2]; rfl)⟩
      simp only [this]
      simp only [FfConn.fieldOn_store hf]
      exact h1
  have hold : ∀ i q, (out.getD (c.newFunction field.shape)).data i q = (out.map fun f => f.data i q).getD 0 := by
    intro i q
    cases out with
    | none => rw [Option.getD_none, hnew]; rfl
    | some f => rfl
  refine ⟨f', hres, ?_, ?_, ?_, ?_, ?_⟩
  · rw [hmeta]; exact hfit.1
  · rw [hmeta]; exact hfit.2
  · rw [hmeta]
  · intro i q hq
    rw [← hold]
    by_cases hqc : q < field.shape.prod
    · have hql : q < field.arrays.length := by omega
      obtain ⟨a, ha, hon⟩ := harr _ (List.getElem_mem hql)
      obtain ⟨x, hx, _⟩ := FfConn.onDiscr_group hon hg
      have := h3 q a x (by rw [List.getElem?_eq_getElem hql, ha]) hx i
      rw [Nat.zero_add] at this
      rw [this, FfConn.assignCol_unmapped hv x _ (hq hqc)]
    · exact h2 i q (Or.inr (by omega))
  · intro q a x hq hx e he k hk
    have := h3 q a x hq hx (c.mapping e k).toNat
    rw [Nat.zero_add] at this
    rw [this, FfConn.assignCol_mapped hv hinj x _ he hk]
    exact Finset.sum_congr rfl fun j _ => mul_comm _ _

theorem ffInverse_apply {n : Nat} {A B : Nat → Nat → K} (h : FfInverse n A B) (u : Nat → K) {k : Nat} (hk : k < n) :
    ∑ j ∈ Finset.range n, A k j * ∑ l ∈ Finset.range n, B j l * u l = u k := by
  calc ∑ j ∈ Finset.range n, A k j * ∑ l ∈ Finset.range n, B j l * u l
      = ∑ l ∈ Finset.range n, (∑ j ∈ Finset.range n, A k j * B j l) * u l := by
        simp only [Finset.mul_sum, Finset.sum_mul]
        rw [Finset.sum_comm]
        exact Finset.sum_congr rfl fun l _ => Finset.sum_congr rfl fun j _ => by ring
    _ = ∑ l ∈ Finset.range n, (if k = l then 1 else 0) * u l :=
        Finset.sum_congr rfl fun l hl => by rw [h k hk l (Finset.mem_range.1 hl)]
    _ = u k := by simp [hk]

/-- C101: fields of all shapes come back from Firedrake as they were: same shape, same values in the connected group. -/
theorem C101_round_trip {c : FfConn K} (hg : c.groupNr < c.groups.length) (hinj : c.MapInj)
    (hinv : FfInverse c.size.2 c.fd2mm c.mm2fd) {field : FfField K}
    (hf : c.FieldOn field) {out : Option (FfFun K)}
    (hout : ∀ f, out = some f → c.Fits f ∧ f.shape = field.shape)
    (hv : c.MapValid (out.getD (c.newFunction field.shape)).nnodes) (i : Nat) :
    ∃ f r, c.fromMeshmode field out = .ok f ∧ c.fromFiredrake f none (.actx i) = .ok r ∧ r.shape = field.shape ∧
      r.arrays.length = field.arrays.length ∧
      ∀ (q : Nat) a b x y, field.arrays[q]? = some (some a) → r.arrays[q]? = some (some b) →
        a.data[c.groupNr]? = some x → b.data[c.groupNr]? = some y →
        ∀ e < c.size.1, ∀ k < c.size.2, y.entry e k = x.entry e k := by
  obtain ⟨f, h1, hfit, hshape, hn, _, hval⟩ := C101_from_meshmode hg hinj hf hout hv
  have hv' : c.MapValid f.nnodes := by rw [hn]; exact hv
  obtain ⟨hdef, hres⟩ := C101_from_firedrake hg hv' (.actx i)
  obtain ⟨r, hr⟩ := hdef.2 ⟨hfit, i, rfl⟩
  obtain ⟨hrs, hron, hrec⟩ := hres r hr
  refine ⟨f, r, h1, hr, by rw [hrs, hshape], ?_, ?_⟩
  · rw [(FfConn.fieldOn_arrays hron).1, (FfConn.fieldOn_arrays hf).1, hrs, hshape]
  · intro q a b x y ha hb hx hy e he k hk
    have hq : q < f.shape.prod := by
      rw [hshape, ← (FfConn.fieldOn_arrays hf).1]
      exact (List.getElem?_eq_some_iff.1 ha).1
    obtain ⟨b', i', hb', _, hR⟩ := hrec q hq
    rw [hb] at hb'
    obtain rfl := Option.some.inj (Option.some.inj hb')
    obtain ⟨y', hy', _, _, _, hent⟩ := hR.values ⟨(c.groups[c.groupNr]).1, (c.groups[c.groupNr]).2, f.dtype, fun _ _ => 0⟩
      (by simp [FfConn.emptyArr, List.getElem?_eq_getElem hg])
    rw [hy] at hy'
    obtain rfl := Option.some.inj hy'
    rw [hent e he k hk, ← ffInverse_apply hinv (fun l => x.entry e l) hk]
    refine Finset.sum_congr rfl fun j hj => ?_
    rw [hval q a x ha hx e he j (Finset.mem_range.1 hj)]

/-- C101: transfer to meshmode and back into the same function leaves all its values as they were. -/
theorem C101_reverse {c : FfConn K} (hg : c.groupNr < c.groups.length) (hinj : c.MapInj)
    (hinv : FfInverse c.size.2 c.mm2fd c.fd2mm) {f : FfFun K} (hfit : c.Fits f)
    (hv : c.MapValid f.nnodes) (i : Nat) :
    ∃ r f', c.fromFiredrake f none (.actx i) = .ok r ∧ c.fromMeshmode r (some f) = .ok f' ∧
      ∀ n q, f'.data n q = f.data n q := by
  obtain ⟨hdef, hres⟩ := C101_from_firedrake hg hv (.actx i)
  obtain ⟨r, hr⟩ := hdef.2 ⟨hfit, i, rfl⟩
  obtain ⟨hrs, hron, hrec⟩ := hres r hr
  obtain ⟨f', h1, _, _, _, hold, hval⟩ := C101_from_meshmode hg hinj hron (out := some f)
    (by rintro _ ⟨⟩; exact ⟨hfit, hrs.symm⟩) hv
  refine ⟨r, f', hr, h1, ?_⟩
  intro n q
  by_cases hm : q < r.shape.prod ∧ ∃ e < c.size.1, ∃ k < c.size.2, c.mapping e k = n
  · obtain ⟨hq, e, he, k, hk, hn⟩ := hm
    obtain ⟨a, i', ha, _, hR⟩ := hrec q (hrs ▸ hq)
    obtain ⟨x, hx, _, _, _, hent⟩ := hR.values ⟨(c.groups[c.groupNr]).1, (c.groups[c.groupNr]).2, f.dtype, fun _ _ => 0⟩
      (by simp [FfConn.emptyArr, List.getElem?_eq_getElem hg])
    have h2 := hval q a x ha hx e he k hk
    rw [hn, Int.toNat_natCast] at h2
    rw [h2]
    have h3 := ffInverse_apply hinv (fun l => f.data (c.mapping e l).toNat q) hk
    simp only [hn, Int.toNat_natCast] at h3
    rw [← h3]
    refine Finset.sum_congr rfl fun j hj => ?_
    rw [hent e he j (Finset.mem_range.1 hj)]
  · rw [hold n q]
    · rfl
    · intro hq e he k hk heq
      exact hm ⟨hq, e, he, k, hk, heq⟩

end

/-! ## Examples -/

/-- An interval of two elements with two nodes, Firedrake's nodes in the opposite order. (Example, no code.) -/
def exFfConn : FfConn ℚ where
  groups := [(2, 2)]
  groupNr := 0
  mapping := fun e k => 3 - (2 * e + k : Nat)
  fd2mm := fun k j => if k + j = 1 then 1 else 0
  mm2fd := fun k j => if k + j = 1 then 1 else 0
  family := 0
  degree := 1
  mesh := 7
  nnodes := 5
  scalar := .float64

/-- A DOF array. (Example, no code.) -/
def exFfArr (v : Nat → Nat → ℚ) : DofObj (GroupArr ℚ) := ⟨some 0, [⟨2, 2, .float64, v⟩]⟩

/-- A field with three components. (Example, no code.) -/
def exFfField : FfField ℚ :=
  .objs [3] [some (exFfArr fun e k => e + k), some (exFfArr fun e _ => e), some (exFfArr fun _ k => 2 * k)]

/-- A Firedrake function. (Example, no code.) -/
def exFfFun (shape : List Nat) : FfFun ℚ := ⟨true, 0, 1, 7, shape, .float64, 5, fun i q => i + 10 * q⟩

/-- The hypotheses of the properties hold in the example. -/
example : exFfConn.groupNr < exFfConn.groups.length ∧ exFfConn.MapInj ∧ exFfConn.MapValid 5 ∧
    exFfConn.FieldOn exFfField ∧ exFfConn.Fits (exFfFun [3]) ∧
    FfInverse exFfConn.size.2 exFfConn.fd2mm exFfConn.mm2fd := by
  refine ⟨by decide, ?_, ?_, ⟨by simp, rfl, ?_⟩, ⟨rfl, rfl, rfl, rfl⟩, ?_⟩
  · intro e he k hk e' he' k' hk' h
    simp only [exFfConn, FfConn.size, List.getD_cons_zero] at he hk he' hk' h
    omega
  · unfold FfConn.MapValid
    decide
  · intro o ho
    simp only [List.mem_cons, List.not_mem_nil, or_false] at ho
    rcases ho with rfl | rfl | rfl <;> exact ⟨_, rfl, by simp [exFfArr], rfl⟩
  · unfold FfInverse
    decide +kernel

example : ffInit ⟨true, true, true, .none, [(true, 2, 2)], true, [2, 2], .other 0, .other 0, [3, 2, 1, 0]⟩ = .ok 0 ∧
    ffInit ⟨true, true, true, .int 1, [(true, 2, 2)], true, [2, 2], .other 0, .other 0, [3, 2, 1, 0]⟩ =
      .error .indexError ∧
    ffInit ⟨true, true, true, .none, [(true, 2, 2)], true, [2, 2], .other 0, .other 0, [3, 2, 1, 3]⟩ =
      .error .valueError := by decide

/-- C101: the documented use of an object array of DOF arrays as `out` raises `AttributeError`, though shape, data type
and array context are right. -/
theorem C101_out_counterexample :
    exFfConn.fromFiredrake (exFfFun [3]) (some exFfField) .none = .error .attributeError ∧
    exFfConn.fromFiredrake (exFfFun [3]) (some exFfField) (.actx 0) = .error .attributeError := by
  refine ⟨(C101_object_out _ _ _ _ _).2 ⟨rfl, rfl, rfl, rfl⟩ ?_, (C101_object_out _ _ _ _ _).2 ⟨rfl, rfl, rfl, rfl⟩ ?_⟩ <;>
  · simp [FfConn.validateField, FfConn.checkArrs, FfConn.checkArr, exFfFun, exFfArr, exFfConn, FfConn.size, entryDtype]

/-- C101: the constructor accepts a mapping with the entries -1 and 4, which denote the same of five nodes: two
degrees of freedom have the same node, and the values do not come back. -/
theorem C101_alias_counterexample :
    let c : FfConn ℚ := ⟨[(1, 2)], 0, fun _ k => if k = 0 then 4 else -1, fun k j => if k = j then 1 else 0,
      fun k j => if k = j then 1 else 0, 0, 1, 7, 5, .float64⟩
    let a : DofObj (GroupArr ℚ) := ⟨some 0, [⟨1, 2, .float64, fun _ k => k⟩]⟩
    ffInit ⟨true, true, true, .none, [(true, 1, 2)], true, [1, 2], .other 0, .other 0, [4, -1]⟩ = .ok 0 ∧
    ∃ f r, c.fromMeshmode (.dof a) none = .ok f ∧ c.fromFiredrake f none (.actx 0) = .ok (.dof r) ∧
      (r.data.map fun x => x.entry 0 0) = [1] ∧ (a.data.map fun x => x.entry 0 0) = [0] := by
  refine ⟨by decide, _, _, rfl, rfl, ?_, ?_⟩ <;> decide +kernel

end Meshmode
