import Verif.Mesh.FacialProps
import Verif.Mesh.Lazy
import Verif.Mesh.Types

/-!
# Code that recreates a mesh (C65)

`as_python` and what running its result does: meshmode/mesh/__init__.py:172-173, 545-560, 629-640,
686-694, 778-790, 2007-2110.

The text is modelled by its syntax tree: array literals are nested lists with the name of an element
type, boundary tags are pieces of text.  What Python makes of such a piece of text in the scope of the
generated function is a parameter `ev`; whether the printed form of a number can be read back (`nan`
and `inf` cannot) is a parameter `isLit`; whether `make_group` finds the unit nodes acceptable is a
parameter `groupOk`.  Element groups are instances of importable classes.
-/
namespace Meshmode

/-! ## Arrays -/

/-- A list literal, nested to any depth (`array.tolist()`, meshmode/mesh/__init__.py:2019-2021). -/
inductive Nest (X : Type) where
  | leaf (x : X)
  | node (l : List (Nest X))

/-- A numpy array: shape, entries in row-major order, element type (the arrays of
meshmode/mesh/__init__.py:2016-2023). -/
structure NArr (X : Type) where
  shape : List Nat
  flat : List X
  dtype : Nat
  deriving DecidableEq

/-- `array.tolist()`, meshmode/mesh/__init__.py:2020: as many items as the first axis is long, each the
list of the array with the other axes. -/
def nestOf {X : Type} : List Nat → List X → Nest X
  | [], x :: _ => .leaf x
  | [], [] => .node []
  | n :: s, l => .node ((List.range n).map fun i => nestOf s ((l.drop (i * s.prod)).take s.prod))

/-- The shape numpy gives to a nested list: that of the first item, with the number of items before it
(`np.array(...)` in the text of meshmode/mesh/__init__.py:2019). -/
def nestShape {X : Type} : Nest X → List Nat
  | .leaf _ => []
  | .node [] => [0]
  | .node (x :: xs) => (xs.length + 1) :: nestShape x

/-- The entries of a nested list of the given shape, `none` if it is ragged (`np.array(...)` in the text
of meshmode/mesh/__init__.py:2019). -/
def nestFlat {X : Type} : List Nat → Nest X → Option (List X)
  | [], .leaf x => some [x]
  | [], .node _ => none
  | _ :: _, .leaf _ => none
  | n :: s, .node l => if l.length = n then (l.mapM (nestFlat s)).map List.flatten else none

/-- The text `np.array(..., dtype=...)`, meshmode/mesh/__init__.py:2016-2023. -/
structure ArrCode (X : Type) where
  nest : Nest X
  dtype : Nat

/-- `_numpy_array_as_python` of an array, meshmode/mesh/__init__.py:2016-2021. -/
def arrCode {X : Type} (a : NArr X) : ArrCode X := ⟨nestOf a.shape a.flat, a.dtype⟩

/-- Running the text of an array, meshmode/mesh/__init__.py:2019-2021. -/
def evalArr {X : Type} (isLit : X → Bool) (c : ArrCode X) : Option (NArr X) :=
  (nestFlat (nestShape c.nest) c.nest).bind fun l =>
    if l.all isLit then some ⟨nestShape c.nest, l, c.dtype⟩ else none

/-- Running the text of an array or `None`, meshmode/mesh/__init__.py:2018-2023. -/
def evalArr? {X : Type} (isLit : X → Bool) : Option (ArrCode X) → Option (Option (NArr X))
  | none => some none
  | some c => (evalArr isLit c).map some

/-! ## Meshes and their text -/

/-- `AffineMap`, meshmode/mesh/tools.py:138-177. -/
structure PyAff (X : Type) where
  matrix : Option (NArr X)
  offset : Option (NArr X)
  deriving DecidableEq

/-- The text of an affine map, meshmode/mesh/__init__.py:2026-2029. -/
structure AffCode (X : Type) where
  matrix : Option (ArrCode X)
  offset : Option (ArrCode X)

/-- `_affine_map_as_python`, meshmode/mesh/__init__.py:2026-2029. -/
def affCode {X : Type} (a : PyAff X) : AffCode X := ⟨a.matrix.map arrCode, a.offset.map arrCode⟩

/-- Running the text of an affine map, meshmode/mesh/__init__.py:2027-2029, tools.py:161-181. -/
def evalAff {X : Type} (isLit : X → Bool) (c : AffCode X) : Option (PyAff X) :=
  (evalArr? isLit c.matrix).bind fun m => (evalArr? isLit c.offset).map fun o => ⟨m, o⟩

/-- `_boundary_tag_as_python`, meshmode/mesh/__init__.py:2007-2013, 172-173: the name of a class, the
characters of a string, or what a method `as_python` returns.  `userText` gives the text of an
application's tags: `none` if the tag is neither class nor string and has no such method. -/
def tagText (userText : Nat → Option String) : BTag → Option String
  | .none => some "BTAG_NONE"
  | .all => some "BTAG_ALL"
  | .reallyAll => some "BTAG_REALLY_ALL"
  | .noBoundary => some "BTAG_NO_BOUNDARY"
  | .partition p => some ("BTAG_PARTITION(" ++ toString p ++ ")")
  | .induced => some "BTAG_INDUCED_BOUNDARY"
  | .user i _ => userText i

/-- The text of a facial adjacency group, meshmode/mesh/__init__.py:545-549.  Index arrays have one axis
and are read back unchanged. -/
inductive FagCode (X : Type) where
  | interior (igroup ineighborGroup : Nat) (rows : List AdjRow) (aff : AffCode X)
  | boundary (igroup : Nat) (tag : String) (faces : List ElFace)
  | interPart (igroup : Nat) (tag : String) (partId : Nat) (rows : List AdjRow) (aff : AffCode X)

/-- `as_python` of the facial adjacency groups, meshmode/mesh/__init__.py:629-640, 686-694, 778-790. -/
def fagCode {X : Type} (userText : Nat → Option String) : Fag (PyAff X) → Option (FagCode X)
  | .interior i j r a => some (.interior i j r (affCode a))
  | .boundary i t f => (tagText userText t).map fun s => .boundary i s f
  | .interPart i t p r a => (tagText userText t).map fun s => .interPart i s p r (affCode a)

/-- Running the text of a facial adjacency group, meshmode/mesh/__init__.py:546-549. -/
def evalFag {X : Type} (ev : String → Option BTag) (isLit : X → Bool) :
    FagCode X → Option (Fag (PyAff X))
  | .interior i j r c => (evalAff isLit c).map fun a => .interior i j r a
  | .boundary i s f => (ev s).map fun t => .boundary i t f
  | .interPart i s p r c => (ev s).bind fun t => (evalAff isLit c).map fun a => .interPart i t p r a

/-- An element group with its arrays, meshmode/mesh/__init__.py:199-251. -/
structure PyGroup (X : Type) where
  cls : Nat
  order : Nat
  vertexIndices : Option (NArr X)
  nodes : NArr X
  unitNodes : NArr X
  deriving DecidableEq

/-- The text that makes an element group, meshmode/mesh/__init__.py:2064-2073. -/
structure GroupCode (X : Type) where
  cls : Nat
  order : Nat
  vertexIndices : Option (ArrCode X)
  nodes : ArrCode X
  unitNodes : ArrCode X

/-- The text for an element group, meshmode/mesh/__init__.py:2064-2073. -/
def groupCode {X : Type} (g : PyGroup X) : GroupCode X :=
  ⟨g.cls, g.order, g.vertexIndices.map arrCode, arrCode g.nodes, arrCode g.unitNodes⟩

/-- `make_group` when given unit nodes, meshmode/mesh/__init__.py:372-410: the axes of `unit_nodes` are
read (an exception if there is only one), and its length must be the dimension of the space. -/
def makeGroup {X : Type} (groupOk : Nat → Nat → Nat → Nat → Bool) (cls order : Nat)
    (vi : Option (NArr X)) (nodes un : NArr X) : Option (PyGroup X) :=
  match un.shape with
  | dim :: n :: _ => if groupOk cls order dim n then some ⟨cls, order, vi, nodes, un⟩ else none
  | _ => none

/-- Running the text of an element group, meshmode/mesh/__init__.py:2066-2073. -/
def evalGroup {X : Type} (isLit : X → Bool) (groupOk : Nat → Nat → Nat → Nat → Bool)
    (c : GroupCode X) : Option (PyGroup X) :=
  (evalArr? isLit c.vertexIndices).bind fun vi =>
    (evalArr isLit c.nodes).bind fun nodes =>
      (evalArr isLit c.unitNodes).bind fun un => makeGroup groupOk c.cls c.order vi nodes un

/-- A mesh with its arrays, meshmode/mesh/__init__.py:1135-1210. -/
structure PyMesh (X : Type) where
  vertices : Option (NArr X)
  groups : List (PyGroup X)
  vertexId : Nat
  elementId : Nat
  faceId : Nat
  nodal : Slot (List Nat × List Nat)
  facial : Slot (List (List (Fag (PyAff X))))
  conforming : Option Bool
  deriving DecidableEq

/-- The text of a mesh, meshmode/mesh/__init__.py:2058-2110. -/
structure MeshCode (X : Type) where
  vertices : Option (ArrCode X)
  groups : List (GroupCode X)
  vertexId : Nat
  elementId : Nat
  nodal : Slot (List Nat × List Nat)
  facial : Slot (List (List (FagCode X)))
  conforming : Option Bool

/-- Apply a function that may raise to the data of an attribute, if there is any
(meshmode/mesh/__init__.py:2077-2090). -/
def Slot.mapM? {α β : Type} (f : α → Option β) : Slot α → Option (Slot β)
  | .missing => some .missing
  | .disabled => some .disabled
  | .data a => (f a).map .data

/-- `as_python`, meshmode/mesh/__init__.py:2032-2110; `none` if it raises. -/
def asPython {X : Type} (userText : Nat → Option String) (m : PyMesh X) : Option (MeshCode X) :=
  (m.facial.mapM? fun fs => fs.mapM fun l => l.mapM (fagCode userText)).map fun facial =>
    { vertices := m.vertices.map arrCode
      groups := m.groups.map groupCode
      vertexId := m.vertexId
      elementId := m.elementId
      nodal := m.nodal
      facial := facial
      conforming := m.conforming }

/-- `make_mesh` without tests, meshmode/mesh/__init__.py:1048-1118. -/
def makeMeshP {X : Type} (vertices : Option (NArr X)) (groups : List (PyGroup X))
    (vertexId elementId faceId : Nat) (nodal : Slot (List Nat × List Nat))
    (facial : Slot (List (List (Fag (PyAff X))))) (conforming : Option Bool) : PyMesh X :=
  let r := LazyMesh.make completeFacial vertices.isSome conforming nodal facial
  ⟨vertices, groups, vertexId, elementId, faceId, r.nodal, r.facial, r.conforming⟩

/-- Calling the generated function, meshmode/mesh/__init__.py:2058-2107.  The call of `make_mesh` does
not mention the type of face numbers, so that it is `int8`, meshmode/mesh/__init__.py:996. -/
def runCode {X : Type} (ev : String → Option BTag) (isLit : X → Bool)
    (groupOk : Nat → Nat → Nat → Nat → Bool) (int8 : Nat) (c : MeshCode X) : Option (PyMesh X) :=
  (evalArr? isLit c.vertices).bind fun vertices =>
    (c.groups.mapM (evalGroup isLit groupOk)).bind fun groups =>
      (c.facial.mapM? fun fs => fs.mapM fun l => l.mapM (evalFag ev isLit)).map fun facial =>
        makeMeshP vertices groups c.vertexId c.elementId int8 c.nodal facial c.conforming

/-! ## Specification -/

/-- As many entries as the shape says. (Specification or proof vocabulary, no code.) -/
def NArr.WF {X : Type} (a : NArr X) : Prop := a.flat.length = a.shape.prod

/-- Only the last axis can have length zero. (Specification or proof vocabulary, no code.) -/
def NArr.Lossless {X : Type} (a : NArr X) : Prop :=
  ∀ k, a.shape[k]? = some 0 → k + 1 = a.shape.length

/-- The arrays of an affine map. (Specification or proof vocabulary, no code.) -/
def PyAff.arrays {X : Type} (a : PyAff X) : List (NArr X) := a.matrix.toList ++ a.offset.toList

/-- The arrays of a facial adjacency group, apart from index arrays.
(Specification or proof vocabulary, no code.) -/
def fagArrays {X : Type} : Fag (PyAff X) → List (NArr X)
  | .interior _ _ _ a => a.arrays
  | .boundary .. => []
  | .interPart _ _ _ _ a => a.arrays

/-- The facial adjacency groups stored in a mesh. (Specification or proof vocabulary, no code.) -/
def PyMesh.fags {X : Type} (m : PyMesh X) : List (Fag (PyAff X)) :=
  match m.facial with
  | .data fs => fs.flatten
  | _ => []

/-- The arrays of an element group. (Specification or proof vocabulary, no code.) -/
def PyGroup.arrays {X : Type} (g : PyGroup X) : List (NArr X) :=
  g.vertexIndices.toList ++ [g.nodes, g.unitNodes]

/-- The arrays of a mesh. (Specification or proof vocabulary, no code.) -/
def PyMesh.arrays {X : Type} (m : PyMesh X) : List (NArr X) :=
  m.vertices.toList ++ m.groups.flatMap PyGroup.arrays ++ m.fags.flatMap fagArrays

/-- The boundary tag of a facial adjacency group. (Specification or proof vocabulary, no code.) -/
def fagTags {X : Type} : Fag (PyAff X) → List BTag
  | .interior .. => []
  | .boundary _ t _ => [t]
  | .interPart _ t _ _ _ => [t]

/-- What `make_mesh` leaves unchanged: without vertices conformity is unknown, missing adjacency occurs
only for conforming meshes, adjacency is complete. (Specification or proof vocabulary, no code.) -/
def PyMesh.Normal {X : Type} (m : PyMesh X) : Prop :=
  (m.vertices = none → m.conforming = none) ∧
  (m.conforming ≠ some true → m.nodal ≠ .missing ∧ m.facial ≠ .missing) ∧
  ∀ fs, m.facial = .data fs → ∀ l ∈ fs, ∀ t ∈ [BTag.none, .all, .reallyAll],
    ∃ f ∈ l, t ∈ fagTags f

/-- The unit nodes have two axes (at least) which `make_group` accepts.
(Specification or proof vocabulary, no code.) -/
def PyGroup.Accepted {X : Type} (groupOk : Nat → Nat → Nat → Nat → Bool) (g : PyGroup X) : Prop :=
  ∃ dim n s, g.unitNodes.shape = dim :: n :: s ∧ groupOk g.cls g.order dim n = true

/-- Facts about the scope of the generated function: the three tags imported in
meshmode/mesh/__init__.py:2044-2053 are found, the other tags of meshmode are not, and no text has
itself as value. (Specification or proof vocabulary, no code.) -/
structure ScopeOk (ev : String → Option BTag) (userText : Nat → Option String) : Prop where
  none : ev "BTAG_NONE" = some .none
  all : ev "BTAG_ALL" = some .all
  reallyAll : ev "BTAG_REALLY_ALL" = some .reallyAll
  noBoundary : ev "BTAG_NO_BOUNDARY" = .none
  induced : ev "BTAG_INDUCED_BOUNDARY" = .none
  partition : ∀ p : Nat, ev ("BTAG_PARTITION(" ++ toString p ++ ")") = .none
  string : ∀ i b s, userText i = some s → ev s ≠ some (.user i b)

/-! ## Proofs -/

section
variable {X : Type}

/-- The axes up to the first of length zero. (Specification or proof vocabulary, no code.) -/
def cutShape : List Nat → List Nat
  | [] => []
  | 0 :: _ => [0]
  | (n + 1) :: s => (n + 1) :: cutShape s

theorem cutShape_eq_self {s : List Nat} :
    cutShape s = s ↔ ∀ k, s[k]? = some 0 → k + 1 = s.length := by
  induction s with
  | nil => simp [cutShape]
  | cons n s ih =>
    cases n with
    | zero =>
      simp only [cutShape, List.cons.injEq, true_and]
      constructor
      · rintro rfl k hk
        cases k <;> simp_all
      · intro h
        have := h 0 rfl
        simp only [List.length_cons] at this
        exact (List.length_eq_zero_iff.1 (by omega)).symm
    | succ n =>
      simp only [cutShape, List.cons.injEq, true_and, ih]
      constructor
      · intro h k hk
        cases k with
        | zero => simp at hk
        | succ k => have := h k (by simpa using hk); simp only [List.length_cons]; omega
      · intro h k hk
        have := h (k + 1) (by simpa using hk)
        simp only [List.length_cons] at this; omega

theorem length_chunk {n p i : Nat} {l : List X} (h : l.length = n * p) (hi : i < n) :
    ((l.drop (i * p)).take p).length = p := by
  have : (i + 1) * p ≤ n * p := Nat.mul_le_mul_right _ hi
  simp only [List.length_take, List.length_drop]
  rw [Nat.add_mul] at this
  omega

theorem nestShape_nestOf {s : List Nat} {l : List X} (h : l.length = s.prod) :
    nestShape (nestOf s l) = cutShape s := by
  induction s generalizing l with
  | nil =>
    match l, h with
    | [x], _ => simp [nestOf, nestShape, cutShape]
  | cons n s ih =>
    cases n with
    | zero => simp [nestOf, nestShape, cutShape]
    | succ n =>
      simp only [nestOf, List.range_succ_eq_map, List.map_cons, nestShape, cutShape,
        List.length_map, List.length_range]
      rw [ih (length_chunk (n := n + 1) (by simpa using h) (by omega))]

theorem flatten_chunks {n p : Nat} {l : List X} (h : l.length = n * p) :
    ((List.range n).map fun i => (l.drop (i * p)).take p).flatten = l := by
  induction n generalizing l with
  | zero => simp at h; subst h; rfl
  | succ n ih =>
    rw [List.range_succ_eq_map, List.map_cons, List.flatten_cons, List.map_map]
    have hl : (l.drop p).length = n * p := by
      rw [List.length_drop, h, Nat.add_mul]; omega
    have : ((fun i => (l.drop (i * p)).take p) ∘ Nat.succ) =
        fun i => ((l.drop p).drop (i * p)).take p := by
      funext i
      simp only [Function.comp, List.drop_drop]
      rw [Nat.succ_mul, Nat.add_comm]
    rw [this, ih hl]
    simp

theorem mapM_eq_some_map {α β : Type} {f : α → Option β} {g : α → β} {l : List α}
    (h : ∀ a ∈ l, f a = some (g a)) : l.mapM f = some (l.map g) := by
  induction l with
  | nil => rfl
  | cons a l ih =>
    rw [List.mapM_cons, h a (by simp), ih fun b hb => h b (by simp [hb])]
    rfl

theorem nestFlat_nestOf {s : List Nat} {l : List X} (h : l.length = s.prod) :
    nestFlat (cutShape s) (nestOf s l) = some l := by
  induction s generalizing l with
  | nil =>
    match l, h with
    | [x], _ => simp [nestOf, nestFlat, cutShape]
  | cons n s ih =>
    cases n with
    | zero =>
      have : l = [] := by simpa using h
      subst this
      simp [nestOf, nestFlat, cutShape]
    | succ n =>
      simp only [nestOf, cutShape, nestFlat, List.length_map, List.length_range, if_true]
      rw [List.mapM_map, mapM_eq_some_map (g := fun i => (l.drop (i * s.prod)).take s.prod)]
      · rw [Option.map_some, flatten_chunks (by simpa using h)]
      · intro i hi
        exact ih (length_chunk (n := n + 1) (by simpa using h) (List.mem_range.1 hi))

theorem evalArr_arrCode {isLit : X → Bool} {a : NArr X} (h : a.WF) :
    evalArr isLit (arrCode a) =
      if a.flat.all isLit then some ⟨cutShape a.shape, a.flat, a.dtype⟩ else none := by
  rw [evalArr, arrCode, nestShape_nestOf h, nestFlat_nestOf h]
  rfl

/-- Literals that are read back, and no lost axes. (Specification or proof vocabulary, no code.) -/
def NArr.Good (isLit : X → Bool) (a : NArr X) : Prop := a.Lossless ∧ ∀ x ∈ a.flat, isLit x = true

theorem evalArr_self {isLit : X → Bool} {a : NArr X} (h : a.WF) :
    evalArr isLit (arrCode a) = some a ↔ a.Good isLit := by
  rw [evalArr_arrCode h, NArr.Good, NArr.Lossless, ← cutShape_eq_self]
  by_cases hl : a.flat.all isLit = true
  · rw [if_pos hl]
    obtain ⟨s, l, d⟩ := a
    simp only [List.all_eq_true] at hl
    simp only [Option.some.injEq, NArr.mk.injEq, and_true]
    exact ⟨fun h => ⟨h, hl⟩, fun h => h.1⟩
  · rw [if_neg hl]
    simp only [List.all_eq_true] at hl
    simp only [reduceCtorEq, false_iff]
    exact fun h => hl h.2

theorem evalArr?_self {isLit : X → Bool} {a : Option (NArr X)} (h : ∀ b ∈ a.toList, b.WF) :
    evalArr? isLit (a.map arrCode) = some a ↔ ∀ b ∈ a.toList, b.Good isLit := by
  cases a with
  | none => simp [evalArr?]
  | some a => simp [evalArr?, evalArr_self (h a (by simp))]

theorem evalAff_self {isLit : X → Bool} {a : PyAff X} (h : ∀ b ∈ a.arrays, b.WF) :
    evalAff isLit (affCode a) = some a ↔ ∀ b ∈ a.arrays, b.Good isLit := by
  obtain ⟨m, o⟩ := a
  simp only [PyAff.arrays, List.mem_append] at h
  have h1 := evalArr?_self (isLit := isLit) (a := m) fun b hb => h b (.inl hb)
  have h2 := evalArr?_self (isLit := isLit) (a := o) fun b hb => h b (.inr hb)
  simp only [PyAff.arrays, List.mem_append, or_imp, forall_and]
  rw [← h1, ← h2, evalAff, affCode]
  simp only [Option.bind_eq_some_iff, Option.map_eq_some_iff, PyAff.mk.injEq]
  constructor
  · rintro ⟨x, hx, y, hy, rfl, rfl⟩; exact ⟨hx, hy⟩
  · rintro ⟨hx, hy⟩; exact ⟨m, hx, o, hy, rfl, rfl⟩

/-- The text of the tag is a name for the tag. (Specification or proof vocabulary, no code.) -/
def TagBack (ev : String → Option BTag) (userText : Nat → Option String) (t : BTag) : Prop :=
  ∃ s, tagText userText t = some s ∧ ev s = some t

theorem evalFag_self {ev : String → Option BTag} {userText : Nat → Option String}
    {isLit : X → Bool} {f : Fag (PyAff X)} (h : ∀ b ∈ fagArrays f, b.WF) :
    (fagCode userText f).bind (evalFag ev isLit) = some f ↔
      (∀ b ∈ fagArrays f, b.Good isLit) ∧ ∀ t ∈ fagTags f, TagBack ev userText t := by
  cases f with
  | interior i j r a =>
    simp only [fagCode, Option.bind_some, evalFag, fagArrays, fagTags, List.not_mem_nil,
      false_implies, implies_true, and_true]
    rw [← evalAff_self h]
    simp
  | boundary i t fs =>
    simp only [fagCode, fagArrays, fagTags, List.not_mem_nil, false_implies, implies_true, true_and,
      List.mem_singleton, forall_eq, TagBack, Option.bind_eq_some_iff, Option.map_eq_some_iff]
    constructor
    · rintro ⟨c, ⟨s, hs, rfl⟩, hc⟩
      simp only [evalFag, Option.map_eq_some_iff, Fag.boundary.injEq, true_and, and_true] at hc
      obtain ⟨t', ht, rfl⟩ := hc
      exact ⟨s, hs, ht⟩
    · rintro ⟨s, hs, ht⟩
      exact ⟨_, ⟨s, hs, rfl⟩, by simp [evalFag, ht]⟩
  | interPart i t p r a =>
    have ha := evalAff_self (isLit := isLit) (a := a) h
    simp only [fagCode, fagArrays, fagTags, List.mem_singleton, forall_eq, TagBack,
      Option.bind_eq_some_iff, Option.map_eq_some_iff, ← ha]
    constructor
    · rintro ⟨c, ⟨s, hs, rfl⟩, hc⟩
      simp only [evalFag, Option.bind_eq_some_iff, Option.map_eq_some_iff, Fag.interPart.injEq,
        true_and] at hc
      obtain ⟨t', ht, a', ha', rfl, rfl⟩ := hc
      exact ⟨ha', s, hs, ht⟩
    · rintro ⟨ha', s, hs, ht⟩
      exact ⟨_, ⟨s, hs, rfl⟩, by simp [evalFag, ht, ha']⟩

theorem evalGroup_self {isLit : X → Bool} {groupOk : Nat → Nat → Nat → Nat → Bool} {g : PyGroup X}
    (h : ∀ b ∈ g.arrays, b.WF) :
    evalGroup isLit groupOk (groupCode g) = some g ↔
      (∀ b ∈ g.arrays, b.Good isLit) ∧ g.Accepted groupOk := by
  obtain ⟨c, o, vi, nd, un⟩ := g
  simp only [PyGroup.arrays, List.mem_append, List.mem_cons, List.not_mem_nil, or_false, or_imp,
    forall_and, forall_eq] at h ⊢
  rw [← evalArr?_self h.1, ← evalArr_self h.2.1, ← evalArr_self h.2.2]
  simp only [evalGroup, groupCode, Option.bind_eq_some_iff, PyGroup.Accepted]
  constructor
  · rintro ⟨vi', h1, nd', h2, un', h3, hm⟩
    rw [makeGroup] at hm
    split at hm
    next dim n s hs =>
      split at hm
      next hg =>
        simp only [Option.some.injEq, PyGroup.mk.injEq, true_and] at hm
        obtain ⟨rfl, rfl, rfl⟩ := hm
        exact ⟨⟨h1, h2, h3⟩, dim, n, s, hs, hg⟩
      · cases hm
    · cases hm
  · rintro ⟨⟨h1, h2, h3⟩, dim, n, s, hs, hg⟩
    refine ⟨vi, h1, nd, h2, un, h3, ?_⟩
    simp [makeGroup, hs, hg]

theorem mapM_self_iff {α : Type} {f : α → Option α} {l : List α} :
    l.mapM f = some l ↔ ∀ a ∈ l, f a = some a := by
  constructor
  · intro h
    induction l with
    | nil => simp
    | cons a l ih =>
      rw [List.mapM_cons] at h
      simp only [Option.bind_eq_bind, Option.bind_eq_some_iff, Option.pure_def, Option.some.injEq,
        List.cons.injEq] at h
      obtain ⟨b, hb, l', hl, rfl, rfl⟩ := h
      intro a ha
      rcases List.mem_cons.1 ha with rfl | ha
      · exact hb
      · exact ih hl a ha
  · intro h
    rw [mapM_eq_some_map (g := id) h, List.map_id]

theorem mapM_bind_mapM {α β γ : Type} {f : α → Option β} {g : β → Option γ} {l : List α} :
    (l.mapM f).bind (fun m => m.mapM g) = l.mapM fun a => (f a).bind g := by
  induction l with
  | nil => rfl
  | cons a l ih =>
    rw [List.mapM_cons, List.mapM_cons, ← ih]
    cases f a with
    | none => rfl
    | some b =>
      cases hl : l.mapM f with
      | none => cases hb : g b <;> simp [hb]
      | some m =>
        simp [List.mapM_cons]

/-- `as_python` followed by running the code, in one. (Specification or proof vocabulary, no code.) -/
def recreate (ev : String → Option BTag) (userText : Nat → Option String) (isLit : X → Bool)
    (groupOk : Nat → Nat → Nat → Nat → Bool) (int8 : Nat) (m : PyMesh X) : Option (PyMesh X) :=
  (asPython userText m).bind (runCode ev isLit groupOk int8)

theorem slot_bind {α β γ : Type} (f : α → Option β) (g : β → Option γ) (s : Slot α) :
    (s.mapM? f).bind (fun t => t.mapM? g) = s.mapM? fun a => (f a).bind g := by
  cases s with
  | missing => rfl
  | disabled => rfl
  | data a =>
    simp only [Slot.mapM?]
    cases f a <;> rfl

theorem recreate_eq {ev : String → Option BTag} {userText : Nat → Option String} {isLit : X → Bool}
    {groupOk : Nat → Nat → Nat → Nat → Bool} {int8 : Nat} {m : PyMesh X} :
    recreate ev userText isLit groupOk int8 m =
      (evalArr? isLit (m.vertices.map arrCode)).bind fun vertices =>
        (m.groups.mapM fun g => evalGroup isLit groupOk (groupCode g)).bind fun groups =>
          (m.facial.mapM? fun fs => fs.mapM fun l => l.mapM fun f =>
            (fagCode userText f).bind (evalFag ev isLit)).map fun facial =>
              makeMeshP vertices groups m.vertexId m.elementId int8 m.nodal facial m.conforming := by
  have hs : (m.facial.mapM? fun fs => fs.mapM fun l => l.mapM fun f =>
      (fagCode userText f).bind (evalFag ev isLit)) =
      (m.facial.mapM? fun fs => fs.mapM fun l => l.mapM (fagCode userText)).bind fun t =>
        t.mapM? fun fs => fs.mapM fun l => l.mapM (evalFag ev isLit) := by
    rw [slot_bind]
    congr 1
    funext fs
    rw [mapM_bind_mapM]
    congr 1
    funext l
    rw [mapM_bind_mapM]
  rw [hs, recreate, asPython]
  cases m.facial.mapM? fun fs => fs.mapM fun l => l.mapM (fagCode userText) with
  | none =>
    simp only [Option.map_none, Option.bind_none]
    cases evalArr? isLit (m.vertices.map arrCode) with
    | none => rfl
    | some v =>
      cases m.groups.mapM fun g => evalGroup isLit groupOk (groupCode g) <;> rfl
  | some t =>
    simp only [Option.map_some, Option.bind_some, runCode]
    rw [List.mapM_map]
    rfl

theorem completeGroup_self {i : Nat} {l : List (Fag (PyAff X))} :
    completeGroup i l = l ↔ ∀ t ∈ [BTag.none, .all, .reallyAll], ∃ f ∈ l, t ∈ fagTags f := by
  have hmem : ∀ t, (∃ f ∈ l, t ∈ fagTags f) ↔ t ∈ (l.filterMap Fag.bdry?).map Prod.fst := by
    intro t
    simp only [List.mem_map, List.mem_filterMap]
    constructor
    · rintro ⟨f, hf, ht⟩
      cases f <;> simp [fagTags] at ht
      · subst ht; exact ⟨_, ⟨_, hf, rfl⟩, rfl⟩
      · subst ht; exact ⟨_, ⟨_, hf, rfl⟩, rfl⟩
    · rintro ⟨b, ⟨f, hf, hb⟩, rfl⟩
      refine ⟨f, hf, ?_⟩
      cases f <;> simp [Fag.bdry?] at hb <;> subst hb <;> simp [fagTags]
  simp only [hmem]
  constructor
  · intro h t ht
    by_contra hn
    have hl := congrArg List.length h
    simp only [completeGroup, List.length_append] at hl
    simp only [List.mem_cons, List.not_mem_nil, or_false] at ht
    rcases ht with rfl | rfl | rfl
    · rw [if_neg hn] at hl; simp only [List.length_singleton] at hl; omega
    · rw [if_neg hn] at hl; simp only [List.length_singleton] at hl; omega
    · rw [if_neg hn] at hl; simp only [List.length_singleton] at hl; omega
  · intro h
    rw [completeGroup, if_pos (h _ (by simp)), if_pos (h _ (by simp)), if_pos (h _ (by simp))]
    simp

theorem completeGroup_prefix (i : Nat) (l : List (Fag (PyAff X))) :
    ∃ t, completeGroup i l = l ++ t :=
  ⟨_, by rw [completeGroup, List.append_assoc, List.append_assoc]⟩

theorem completeFacial_self {fs : List (List (Fag (PyAff X)))} :
    completeFacial fs = fs ↔
      ∀ l ∈ fs, ∀ t ∈ [BTag.none, .all, .reallyAll], ∃ f ∈ l, t ∈ fagTags f := by
  constructor
  · intro h l hl
    obtain ⟨i, hi⟩ := List.mem_iff_getElem?.1 hl
    have := completeFacial_getElem? fs i
    rw [h, hi] at this
    exact completeGroup_self.1 (Option.some.inj this).symm
  · intro h
    apply List.ext_getElem?
    intro i
    rw [completeFacial_getElem?]
    cases hi : fs[i]? with
    | none => rfl
    | some l => rw [Option.map_some, completeGroup_self.2 (h l (List.mem_of_getElem? hi))]

theorem mapM_length {α β : Type} {f : α → Option β} {l : List α} {m : List β}
    (h : l.mapM f = some m) : m.length = l.length := by
  induction l generalizing m with
  | nil => cases h; rfl
  | cons a l ih =>
    rw [List.mapM_cons] at h
    simp only [Option.bind_eq_bind, Option.bind_eq_some_iff, Option.pure_def, Option.some.injEq] at h
    obtain ⟨b, _, l', hl, rfl⟩ := h
    rw [List.length_cons, List.length_cons, ih hl]

theorem mapM_getElem?' {α β : Type} {f : α → Option β} {l : List α} {m : List β}
    (h : l.mapM f = some m) (i : Nat) : m[i]? = l[i]?.bind f := by
  induction l generalizing m i with
  | nil => cases h; simp
  | cons a l ih =>
    rw [List.mapM_cons] at h
    simp only [Option.bind_eq_bind, Option.bind_eq_some_iff, Option.pure_def, Option.some.injEq] at h
    obtain ⟨b, hb, l', hl, rfl⟩ := h
    cases i with
    | zero => simp [hb]
    | succ i => simpa using ih hl i

/-- Completing adjacency of the same size can only give the original if it was the original. -/
theorem completeFacial_inj {g : List (Fag (PyAff X)) → Option (List (Fag (PyAff X)))}
    (hg : ∀ l l', g l = some l' → l'.length = l.length)
    {fs fs' : List (List (Fag (PyAff X)))} (hm : fs.mapM g = some fs')
    (h : completeFacial fs' = fs) : fs' = fs := by
  apply List.ext_getElem?
  intro i
  have h1 := completeFacial_getElem? fs' i
  have h2 := mapM_getElem?' hm i
  rw [h] at h1
  cases hi : fs[i]? with
  | none => rw [hi] at h2; simpa using h2
  | some l =>
    rw [hi] at h1 h2
    obtain ⟨l', hl', he⟩ := Option.map_eq_some_iff.1 h1.symm
    rw [hl'] at h2
    have hlen := hg l l' h2.symm
    obtain ⟨t, ht⟩ := completeGroup_prefix i l'
    rw [ht] at he
    have : t = [] := by
      have := congrArg List.length he
      simp only [List.length_append] at this
      exact List.length_eq_zero_iff.1 (by omega)
    rw [hl', ← he, this, List.append_nil]

/-- C65: the code made by `as_python` recreates the mesh, apart from the type of face numbers, exactly
if the mesh is one that `make_mesh` returns unchanged, no array has further axes after one of length
zero, every number can be read back, `make_group` accepts the unit nodes, and the text of every boundary
tag is a name for this tag in the generated function. -/
theorem C65_recreates_iff {ev : String → Option BTag} {userText : Nat → Option String}
    {isLit : X → Bool} {groupOk : Nat → Nat → Nat → Nat → Bool} {int8 : Nat} {m : PyMesh X}
    (hwf : ∀ a ∈ m.arrays, a.WF) :
    recreate ev userText isLit groupOk int8 m = some { m with faceId := int8 } ↔
      m.Normal ∧ (∀ a ∈ m.arrays, a.Lossless ∧ ∀ x ∈ a.flat, isLit x = true) ∧
      (∀ g ∈ m.groups, g.Accepted groupOk) ∧
      ∀ f ∈ m.fags, ∀ t ∈ fagTags f, ∃ s, tagText userText t = some s ∧ ev s = some t := by
  have hv : ∀ a ∈ m.vertices.toList, a.WF := fun a ha => hwf a (by simp [PyMesh.arrays, ha])
  have hg : ∀ g ∈ m.groups, ∀ a ∈ g.arrays, a.WF := fun g hg a ha =>
    hwf a (by simp only [PyMesh.arrays, List.mem_append, List.mem_flatMap]; exact .inl (.inr ⟨g, hg, ha⟩))
  have hf : ∀ f ∈ m.fags, ∀ a ∈ fagArrays f, a.WF := fun f hf a ha =>
    hwf a (by simp only [PyMesh.arrays, List.mem_append, List.mem_flatMap]; exact .inr ⟨f, hf, ha⟩)
  have hfin : (∀ a ∈ m.arrays, a.Lossless ∧ ∀ x ∈ a.flat, isLit x = true) ↔
      (∀ a ∈ m.vertices.toList, a.Good isLit) ∧ (∀ g ∈ m.groups, ∀ a ∈ g.arrays, a.Good isLit) ∧
        ∀ f ∈ m.fags, ∀ a ∈ fagArrays f, a.Good isLit := by
    simp only [PyMesh.arrays, List.mem_append, List.mem_flatMap, NArr.Good]
    constructor
    · intro h
      exact ⟨fun a ha => h a (.inl (.inl ha)), fun g hg a ha => h a (.inl (.inr ⟨g, hg, ha⟩)),
        fun f hf a ha => h a (.inr ⟨f, hf, ha⟩)⟩
    · rintro ⟨h1, h2, h3⟩ a ((ha | ⟨g, hg, ha⟩) | ⟨f, hf, ha⟩)
      exacts [h1 a ha, h2 g hg a ha, h3 f hf a ha]
  have hgrp : (m.groups.mapM fun g => evalGroup isLit groupOk (groupCode g)) = some m.groups ↔
      (∀ g ∈ m.groups, ∀ a ∈ g.arrays, a.Good isLit) ∧ ∀ g ∈ m.groups, g.Accepted groupOk := by
    rw [mapM_self_iff]
    constructor
    · intro h
      exact ⟨fun g hg' => ((evalGroup_self (hg g hg')).1 (h g hg')).1,
        fun g hg' => ((evalGroup_self (hg g hg')).1 (h g hg')).2⟩
    · rintro ⟨h1, h2⟩ g hg'
      exact (evalGroup_self (hg g hg')).2 ⟨h1 g hg', h2 g hg'⟩
  have hfag : ∀ fs, m.facial = .data fs →
      ((fs.mapM fun l => l.mapM fun f => (fagCode userText f).bind (evalFag ev isLit)) = some fs ↔
        (∀ f ∈ m.fags, ∀ a ∈ fagArrays f, a.Good isLit) ∧
          ∀ f ∈ m.fags, ∀ t ∈ fagTags f, TagBack ev userText t) := by
    intro fs hfs
    have hm : m.fags = fs.flatten := by rw [PyMesh.fags, hfs]
    rw [mapM_self_iff]
    constructor
    · intro h
      have key : ∀ f ∈ m.fags, (fagCode userText f).bind (evalFag ev isLit) = some f := by
        intro f hf'
        rw [hm, List.mem_flatten] at hf'
        obtain ⟨l, hl, hfl⟩ := hf'
        exact mapM_self_iff.1 (h l hl) f hfl
      exact ⟨fun f hf' => ((evalFag_self (hf f hf')).1 (key f hf')).1,
        fun f hf' => ((evalFag_self (hf f hf')).1 (key f hf')).2⟩
    · rintro ⟨h1, h2⟩ l hl
      rw [mapM_self_iff]
      intro f hfl
      have hf' : f ∈ m.fags := by rw [hm, List.mem_flatten]; exact ⟨l, hl, hfl⟩
      exact (evalFag_self (hf f hf')).2 ⟨h1 f hf', h2 f hf'⟩
  rw [hfin, recreate_eq]
  have hvi := evalArr?_self (isLit := isLit) hv
  obtain ⟨v, gs, t1, t2, t3, nd, fa, cf⟩ := m
  simp only [Option.bind_eq_some_iff, Option.map_eq_some_iff, makeMeshP, LazyMesh.make,
    PyMesh.mk.injEq, true_and, PyMesh.Normal] at hvi hgrp hfag ⊢
  constructor
  · rintro ⟨v', hv', gs', hgs', fa', hfa', rfl, rfl, hnd, hfc, hcf⟩
    have hc : (v' = none → cf = none) := by
      rintro rfl; simpa using hcf.symm
    rw [hcf] at hnd hfc
    have hfaEq : fa' = fa ∧ ∀ fs, fa = .data fs → completeFacial fs = fs := by
      cases fa with
      | missing =>
        simp only [Slot.mapM?, Option.some.injEq] at hfa'
        exact ⟨hfa'.symm, by simp⟩
      | disabled =>
        simp only [Slot.mapM?, Option.some.injEq] at hfa'
        exact ⟨hfa'.symm, by simp⟩
      | data fs =>
        simp only [Slot.mapM?, Option.map_eq_some_iff] at hfa'
        obtain ⟨fs', hm, rfl⟩ := hfa'
        have : completeFacial fs' = fs := by
          by_cases h : cf = some true <;> simpa [h] using hfc
        have he := completeFacial_inj (fun l l' h => mapM_length h) hm this
        subst he
        exact ⟨rfl, by rintro _ ⟨⟩; exact this⟩
    obtain ⟨rfl, hcomp⟩ := hfaEq
    refine ⟨⟨hc, ?_, fun fs h => completeFacial_self.1 (hcomp fs h)⟩, ?_⟩
    · intro hne
      simp only [if_neg hne] at hnd hfc
      constructor
      · rintro rfl; simp at hnd
      · rintro rfl; simp at hfc
    · refine ⟨⟨hvi.1 hv', (hgrp.1 hgs').1, ?_⟩, (hgrp.1 hgs').2, ?_⟩
      · cases hfa : fa' with
        | missing => simp [PyMesh.fags]
        | disabled => simp [PyMesh.fags]
        | data fs =>
          rw [hfa] at hfa' hfag
          simp only [Slot.mapM?, Option.map_eq_some_iff, Slot.data.injEq, exists_eq_right] at hfa'
          exact ((hfag fs rfl).1 hfa').1
      · cases hfa : fa' with
        | missing => simp [PyMesh.fags]
        | disabled => simp [PyMesh.fags]
        | data fs =>
          rw [hfa] at hfa' hfag
          simp only [Slot.mapM?, Option.map_eq_some_iff, Slot.data.injEq, exists_eq_right] at hfa'
          exact ((hfag fs rfl).1 hfa').2
  · rintro ⟨⟨hc, hms, hcomp⟩, ⟨h1, h2, h3⟩, h4, h5⟩
    have hcf : (if v.isSome = true then cf else none) = cf := by
      cases v with
      | none => simp [hc rfl]
      | some v => simp
    refine ⟨v, hvi.2 h1, gs, hgrp.2 ⟨h2, h4⟩, fa, ?_, rfl, rfl, ?_, ?_, hcf⟩
    · cases fa with
      | missing => rfl
      | disabled => rfl
      | data fs =>
        simp only [Slot.mapM?, Option.map_eq_some_iff, Slot.data.injEq, exists_eq_right]
        exact (hfag fs rfl).2 ⟨h3, h5⟩
    · rw [hcf]
      by_cases h : cf = some true
      · rw [if_pos h]
      · rw [if_neg h]
        cases nd with
        | missing => exact absurd rfl (hms h).1
        | disabled => rfl
        | data _ => rfl
    · rw [hcf]
      cases fa with
      | missing =>
        by_cases h : cf = some true
        · rw [if_pos h]
        · exact absurd rfl (hms h).2
      | disabled => simp
      | data fs => simp [completeFacial_self.2 (hcomp fs rfl)]

/-- A tag is named by its text in the generated function exactly if it is one of the three imported
tags. -/
theorem tagBack_iff {ev : String → Option BTag} {userText : Nat → Option String}
    (hs : ScopeOk ev userText) {t : BTag} :
    (∃ s, tagText userText t = some s ∧ ev s = some t) ↔ t = .none ∨ t = .all ∨ t = .reallyAll := by
  cases t with
  | none => simp [tagText, hs.none]
  | all => simp [tagText, hs.all]
  | reallyAll => simp [tagText, hs.reallyAll]
  | noBoundary => simp [tagText, hs.noBoundary]
  | induced => simp [tagText, hs.induced]
  | partition p =>
    have := hs.partition p
    simp only [tagText, Option.some.injEq, exists_eq_left', this]
    simp
  | user i b =>
    simp only [tagText, reduceCtorEq, or_self, iff_false, not_exists, not_and]
    exact fun s h => hs.string i b s h

/-- C65: in the scope that the generated code has, a mesh made by `make_mesh` is recreated, apart from
the type of face numbers, exactly if it stores no adjacency for boundary tags other than `BTAG_NONE`,
`BTAG_ALL` and `BTAG_REALLY_ALL`, its arrays have no axes after one of length zero, and all its numbers
can be read back.

Partial: the documentation promises code recreating every mesh. -/
theorem C65_recreates_partial {ev : String → Option BTag} {userText : Nat → Option String}
    (hs : ScopeOk ev userText) {isLit : X → Bool} {groupOk : Nat → Nat → Nat → Nat → Bool} {int8 : Nat}
    {m : PyMesh X} (hwf : ∀ a ∈ m.arrays, a.WF) (hn : m.Normal)
    (hg : ∀ g ∈ m.groups, g.Accepted groupOk) :
    recreate ev userText isLit groupOk int8 m = some { m with faceId := int8 } ↔
      (∀ a ∈ m.arrays, a.Lossless ∧ ∀ x ∈ a.flat, isLit x = true) ∧
      ∀ f ∈ m.fags, ∀ t ∈ fagTags f, t = .none ∨ t = .all ∨ t = .reallyAll := by
  rw [C65_recreates_iff hwf]
  simp only [tagBack_iff hs]
  exact ⟨fun h => ⟨h.2.1, h.2.2.2⟩, fun h => ⟨hn, h.1, hg, h.2⟩⟩

theorem fagTags_completeGroup {i : Nat} {l : List (Fag (PyAff X))} :
    ∀ t ∈ [BTag.none, .all, .reallyAll], ∃ f ∈ completeGroup i l, t ∈ fagTags f := by
  have hmem : ∀ t, t ∈ (l.filterMap Fag.bdry?).map Prod.fst → ∃ f ∈ l, t ∈ fagTags f := by
    intro t
    simp only [List.mem_map, List.mem_filterMap]
    rintro ⟨b, ⟨f, hf, hb⟩, rfl⟩
    refine ⟨f, hf, ?_⟩
    cases f <;> simp [Fag.bdry?] at hb <;> subst hb <;> simp [fagTags]
  have key : ∀ (t : BTag) (x : List ElFace) (rest : List (Fag (PyAff X))),
      (if t ∈ (l.filterMap Fag.bdry?).map Prod.fst then [] else [Fag.boundary i t x]) ⊆ rest →
      l ⊆ rest → ∃ f ∈ rest, t ∈ fagTags f := by
    intro t x rest h1 h2
    by_cases h : t ∈ (l.filterMap Fag.bdry?).map Prod.fst
    · obtain ⟨f, hf, ht⟩ := hmem t h
      exact ⟨f, h2 hf, ht⟩
    · rw [if_neg h] at h1
      exact ⟨.boundary i t x, h1 (by simp), by simp [fagTags]⟩
  have hl : l ⊆ completeGroup i l := by
    intro f hf; simp only [completeGroup, List.mem_append]; exact .inl (.inl (.inl hf))
  intro t ht
  simp only [List.mem_cons, List.not_mem_nil, or_false] at ht
  rcases ht with rfl | rfl | rfl
  · refine key _ [] _ ?_ hl
    intro f hf; simp only [completeGroup, List.mem_append]; exact .inl (.inl (.inr hf))
  · refine key _ (mergeBoundary (((l.filterMap Fag.bdry?).filter fun b =>
      isTrueBoundary b.1).map Prod.snd)) _ ?_ hl
    intro f hf; simp only [completeGroup, List.mem_append]; exact .inl (.inr hf)
  · refine key _ (mergeBoundary ((l.filterMap Fag.bdry?).map Prod.snd)) _ ?_ hl
    intro f hf; simp only [completeGroup, List.mem_append]; exact .inr hf

/-- C65: what `make_mesh` returns has the form that it leaves unchanged. -/
theorem C65_made_normal (vertices : Option (NArr X)) (groups : List (PyGroup X))
    (vertexId elementId faceId : Nat) (nodal : Slot (List Nat × List Nat))
    (facial : Slot (List (List (Fag (PyAff X))))) (conforming : Option Bool) :
    (makeMeshP vertices groups vertexId elementId faceId nodal facial conforming).Normal := by
  simp only [makeMeshP, LazyMesh.make, PyMesh.Normal]
  refine ⟨by rintro rfl; simp, fun hne => ?_, ?_⟩
  · simp only [if_neg hne]
    constructor
    · cases nodal <;> simp
    · cases facial <;> simp
  · intro fs hfs l hl
    have hd : ∃ fs', fs = completeFacial fs' := by
      revert hfs
      split
      · rintro ⟨⟩; exact ⟨_, rfl⟩
      · next h => intro h'; exact absurd h' (h fs)
    obtain ⟨fs', rfl⟩ := hd
    obtain ⟨i, hi⟩ := List.mem_iff_getElem?.1 hl
    rw [completeFacial_getElem?] at hi
    obtain ⟨l', _, rfl⟩ := Option.map_eq_some_iff.1 hi
    exact fagTags_completeGroup

/-- C65: a mesh whose stored adjacency mentions `BTAG_PARTITION`, `BTAG_INDUCED_BOUNDARY` or
`BTAG_NO_BOUNDARY` is not recreated at all: running the code raises an exception. -/
theorem C65_raises {ev : String → Option BTag} {userText : Nat → Option String}
    (hs : ScopeOk ev userText) {isLit : X → Bool} {groupOk : Nat → Nat → Nat → Nat → Bool} {int8 : Nat}
    {m : PyMesh X} {f : Fag (PyAff X)} (hf : f ∈ m.fags) {t : BTag} (ht : t ∈ fagTags f)
    (h : t = .noBoundary ∨ t = .induced ∨ ∃ p, t = .partition p) :
    recreate ev userText isLit groupOk int8 m = none := by
  have hev : (tagText userText t).bind ev = none := by
    rcases h with rfl | rfl | ⟨p, rfl⟩
    · simp [tagText, hs.noBoundary]
    · simp [tagText, hs.induced]
    · exact hs.partition p
  have hfn : (fagCode userText f).bind (evalFag ev isLit) = none := by
    cases f with
    | interior => simp [fagTags] at ht
    | boundary i t' fs =>
      simp only [fagTags, List.mem_singleton] at ht
      subst ht
      rw [fagCode]
      cases hx : tagText userText t with
      | none => rfl
      | some s => rw [hx] at hev; simp only [Option.bind_some] at hev; simp [evalFag, hev]
    | interPart i t' p r a =>
      simp only [fagTags, List.mem_singleton] at ht
      subst ht
      rw [fagCode]
      cases hx : tagText userText t with
      | none => rfl
      | some s => rw [hx] at hev; simp only [Option.bind_some] at hev; simp [evalFag, hev]
  rw [recreate_eq]
  have hfac : (m.facial.mapM? fun fs => fs.mapM fun l => l.mapM fun f =>
      (fagCode userText f).bind (evalFag ev isLit)) = none := by
    unfold PyMesh.fags at hf
    cases hm : m.facial with
    | missing => rw [hm] at hf; simp at hf
    | disabled => rw [hm] at hf; simp at hf
    | data fs =>
      rw [hm] at hf
      obtain ⟨l, hl, hfl⟩ := List.mem_flatten.1 hf
      rw [Slot.mapM?, Option.map_eq_none_iff]
      by_contra hne
      obtain ⟨fs', hfs⟩ := Option.ne_none_iff_exists'.1 hne
      obtain ⟨i, hi⟩ := List.mem_iff_getElem?.1 hl
      have h1 := mapM_getElem?' hfs i
      rw [hi, Option.bind_some] at h1
      have hlt : i < fs'.length := by
        rw [mapM_length hfs]; exact (List.getElem?_eq_some_iff.1 hi).1
      rw [List.getElem?_eq_getElem hlt] at h1
      obtain ⟨j, hj⟩ := List.mem_iff_getElem?.1 hfl
      have h2 := mapM_getElem?' h1.symm j
      have hlt2 : j < (fs'[i]).length := by
        rw [mapM_length h1.symm]; exact (List.getElem?_eq_some_iff.1 hj).1
      rw [hj, Option.bind_some, hfn, List.getElem?_eq_getElem hlt2] at h2
      cases h2
  rw [hfac]
  simp

/-- C65: whatever is recreated has vertices and groups of the original up to lost axes, and its face
numbers have the default type. -/
theorem C65_result {ev : String → Option BTag} {userText : Nat → Option String}
    {isLit : X → Bool} {groupOk : Nat → Nat → Nat → Nat → Bool} {int8 : Nat}
    {m m' : PyMesh X} (h : recreate ev userText isLit groupOk int8 m = some m') :
    m'.Normal ∧ m'.faceId = int8 ∧ m'.vertexId = m.vertexId ∧ m'.elementId = m.elementId ∧
      m'.groups.length = m.groups.length ∧ m'.vertices.isSome = m.vertices.isSome := by
  rw [recreate_eq] at h
  simp only [Option.bind_eq_some_iff, Option.map_eq_some_iff] at h
  obtain ⟨v, hv, gs, hgs, fa, _, rfl⟩ := h
  refine ⟨C65_made_normal .., rfl, rfl, rfl, mapM_length hgs, ?_⟩
  cases hm : m.vertices with
  | none => rw [hm] at hv; simp only [Option.map_none, evalArr?, Option.some.injEq] at hv; subst hv; rfl
  | some a =>
    rw [hm] at hv
    simp only [Option.map_some, evalArr?, Option.map_eq_some_iff] at hv
    obtain ⟨b, _, rfl⟩ := hv
    rfl

/-! ## Concrete cases -/

/-- What the names mean in the generated function. (Example, no code.) -/
def exEv (s : String) : Option BTag :=
  if s = "BTAG_NONE" then some .none
  else if s = "BTAG_ALL" then some .all
  else if s = "BTAG_REALLY_ALL" then some .reallyAll else none

/-- The string `"inflow"` as tag number 0. (Example, no code.) -/
def exUserText (i : Nat) : Option String := if i = 0 then some "inflow" else none

theorem exScopeOk : ScopeOk exEv exUserText := by
  refine ⟨rfl, rfl, rfl, rfl, rfl, fun p => ?_, fun i b s h => ?_⟩
  · have h1 : ∀ s : String, s.toList.head? = some 'B' → ∀ x y : String,
        s.toList = "BTAG_PARTITION(".toList ++ x.toList ++ y.toList →
        exEv s = none := by
      intro s _ x y hs
      have : ∀ t : String, t.toList.take 15 ≠ "BTAG_PARTITION(".toList → s ≠ t := by
        rintro t ht rfl
        apply ht
        rw [hs, List.append_assoc, List.take_append_of_le_length (by decide)]
        decide
      rw [exEv, if_neg (this _ (by decide)), if_neg (this _ (by decide)), if_neg (this _ (by decide))]
    exact h1 _ (by simp) (toString p) ")" (by simp)
  · rw [exUserText] at h
    split at h
    · cases h
      have : exEv "inflow" = none := by decide
      rw [this]; simp
    · cases h

/-- An interval with two vertices, one element, and the given tag for its left end.
(Example, no code.) -/
def exInterval (t : BTag) : PyMesh Int :=
  makeMeshP (some ⟨[1, 2], [0, 1], 0⟩)
    [⟨0, 1, some ⟨[1, 2], [0, 1], 1⟩, ⟨[1, 1, 2], [0, 1], 0⟩, ⟨[1, 2], [-1, 1], 0⟩⟩]
    5 5 8 .missing (.data [[.boundary 0 t [⟨0, 0⟩], .boundary 0 .all [⟨0, 0⟩, ⟨0, 1⟩]]]) (some true)

/-- The interval with a group without elements besides. (Example, no code.) -/
def exEmptyGroup : PyMesh Int :=
  { exInterval .none with
    groups := (exInterval .none).groups ++
      [⟨0, 1, some ⟨[0, 2], [], 1⟩, ⟨[1, 0, 2], [], 0⟩, ⟨[1, 2], [-1, 1], 0⟩⟩] }

/-- `make_group` accepts as many unit nodes as `order + 1`. (Example, no code.) -/
def exGroupOk (_ order dim n : Nat) : Bool := dim == 1 && n == order + 1

-- A mesh that is recreated, with `int8` (8) as type of face numbers.
example : (∀ a ∈ (exInterval .none).arrays, a.WF) ∧ (exInterval .none).Normal ∧
    (∀ g ∈ (exInterval .none).groups, g.Accepted exGroupOk) := by
  refine ⟨?_, C65_made_normal .., ?_⟩
  · unfold NArr.WF; decide +kernel
  · intro g hg
    have : g = ⟨0, 1, some ⟨[1, 2], [0, 1], 1⟩, ⟨[1, 1, 2], [0, 1], 0⟩, ⟨[1, 2], [-1, 1], 0⟩⟩ := by
      simpa [exInterval, makeMeshP] using hg
    subst this
    exact ⟨1, 2, [], rfl, rfl⟩

example : recreate exEv exUserText (fun _ => true) exGroupOk 8 (exInterval .none) =
    some (exInterval .none) := by decide +kernel

/-- C65: strings as boundary tags are printed without quotes, so that a mesh with such a tag is not
recreated; neither are parts of a mesh, which have tags `BTAG_PARTITION`. -/
theorem C65_string_tag_counterexample :
    recreate exEv exUserText (fun _ => true) exGroupOk 8 (exInterval (.user 0 false)) = none ∧
    recreate exEv exUserText (fun _ => true) exGroupOk 8 (exInterval (.partition 3)) = none := by
  decide +kernel

/-- C65: a group without elements loses axes of its arrays, so that the recreated mesh differs. -/
theorem C65_empty_group_counterexample :
    ∃ m, recreate exEv exUserText (fun _ => true) exGroupOk 8 exEmptyGroup = some m ∧
      m ≠ exEmptyGroup ∧ m.groups ≠ exEmptyGroup.groups := by
  refine ⟨{ exEmptyGroup with
    groups := (exInterval .none).groups ++
      [⟨0, 1, some ⟨[0], [], 1⟩, ⟨[1, 0], [], 0⟩, ⟨[1, 2], [-1, 1], 0⟩⟩] }, ?_, ?_, ?_⟩ <;>
    decide +kernel

/-- C65: the type of face numbers is not recreated. -/
theorem C65_face_id_counterexample :
    ∃ m, recreate exEv exUserText (fun _ => true) exGroupOk 8
        { exInterval .none with faceId := 32 } = some m ∧ m.faceId ≠ 32 :=
  ⟨exInterval .none, by decide +kernel, by decide +kernel⟩

/-- C65: a mesh with a tag that is neither class nor string nor has a method `as_python` makes
`as_python` itself raise an exception. -/
theorem C65_other_tag_counterexample :
    (asPython exUserText (exInterval (.user 1 false))).isNone = true := by decide +kernel

end

end Meshmode
