import Verif.Np

/-!
# Element group factories (C40)

meshmode/discretization/poly_element.py:691-1033.
-/
namespace Meshmode

/-! ## Model -/

/-- The discretization element group classes that the factories of the library use.
Code: meshmode/discretization/poly_element.py:167-690. -/
inductive DGroupClass where
  | modalSimplex | quadratureSimplex | interpQuadratureSimplex | warpBlend | warpBlend2D | warpBlend3D
  | recursiveNodes | equidistantSimplex | givenNodes
  | modalTensor | gaussLegendre | gaussLobatto | equidistantTensor
  /-- a class defined elsewhere -/
  | user (n : Nat)
  deriving DecidableEq, Repr

/-- Mesh element group classes: the two of the library, or others.
Code: meshmode/mesh/__init__.py:338-453. -/
inductive MGroupClass where
  | simplex | tensor
  | user (n : Nat)
  deriving DecidableEq, Repr

/-- A mesh element group: its type and its dimension. Code: meshmode/mesh/__init__.py:199-330. -/
structure MGroup where
  type : MGroupClass
  dim : Nat
  deriving DecidableEq, Repr

/-- What is constructed: an element group of a class, with its mesh element group, its order, and the
number of a further argument (node family or unit nodes).
Code: meshmode/discretization/poly_element.py:691-784. -/
structure BuiltGroup where
  cls : DGroupClass
  group : MGroup
  order : Nat
  extra : Option Nat := none
  deriving DecidableEq, Repr

mutual
/-- Group factories, meshmode/discretization/poly_element.py:691-1005. -/
inductive Factory where
  /-- `HomogeneousOrderBasedGroupFactory` with its two class attributes, 691-728 -/
  | homog (mesh : MGroupClass) (cls : DGroupClass) (order : Nat)
  /-- `PolynomialRecursiveNodesGroupFactory`, 850-867 -/
  | recursive (order family : Nat)
  /-- `PolynomialGivenNodesGroupFactory`, 880-895 -/
  | given (order nodes : Nat)
  /-- `_DefaultPolynomialSimplexGroupFactory`, 929-938 -/
  | default (order : Nat)
  /-- `TypeMappingGroupFactory`, 736-782 -/
  | typeMap (order : Nat) (map : List (MGroupClass × Entry))
/-- Values of `mesh_group_class_to_factory`: a subclass of `ElementGroupBase`, a factory, or something
that cannot be called.  (`ElementGroupFactory` is a runtime-checkable protocol, so *any* callable counts
as a factory; callables other than those above are not modelled.)
Code: meshmode/discretization/poly_element.py:736-782. -/
inductive Entry where
  | cls (c : DGroupClass)
  | factory (f : Factory)
  | other
end

/-- `isinstance` for mesh element groups: `sub c c'` if `c` is a subclass of `c'` (or `c'` itself).
Code: meshmode/discretization/poly_element.py:736-782. -/
abbrev Subclass := MGroupClass → MGroupClass → Bool

/-- The number standing for `family="lgl"`.
Code: meshmode/discretization/poly_element.py:850-867. -/
def familyLgl : Nat := 0

/-- `HomogeneousOrderBasedGroupFactory.__call__`, meshmode/discretization/poly_element.py:718-728;
`none` is a `TypeError`. -/
def callHomog (sub : Subclass) (mesh : MGroupClass) (cls : DGroupClass) (order : Nat) (g : MGroup) :
    Option BuiltGroup :=
  if sub g.type mesh then some { cls := cls, group := g, order := order } else none

/-- `PolynomialRecursiveNodesGroupFactory.__call__`,
meshmode/discretization/poly_element.py:860-867. -/
def callRecursive (sub : Subclass) (order family : Nat) (g : MGroup) : Option BuiltGroup :=
  if sub g.type .simplex then
    some { cls := .recursiveNodes, group := g, order := order, extra := some family }
  else none

/-- `PolynomialGivenNodesGroupFactory.__call__`, meshmode/discretization/poly_element.py:888-895. -/
def callGiven (sub : Subclass) (order nodes : Nat) (g : MGroup) : Option BuiltGroup :=
  if sub g.type .simplex then
    some { cls := .givenNodes, group := g, order := order, extra := some nodes }
  else none

/-- `default_simplex_group_factory`, meshmode/discretization/poly_element.py:1012-1033; `recnodes` says
whether `recursivenodes` can be imported, `none` is the `ValueError`. -/
def defaultSimplexFactory (recnodes : Bool) (dim order : Nat) : Option Factory :=
  if recnodes then some (.recursive order familyLgl)
  else if dim ≤ 2 then some (.homog .simplex .warpBlend2D order)
  else if dim = 3 then some (.homog .simplex .warpBlend3D order)
  else none

/-- `_DefaultPolynomialSimplexGroupFactory.__call__`,
meshmode/discretization/poly_element.py:936-938. -/
def callDefault (sub : Subclass) (recnodes : Bool) (order : Nat) (g : MGroup) : Option BuiltGroup :=
  if recnodes then callRecursive sub order familyLgl g
  else if g.dim ≤ 2 then callHomog sub .simplex .warpBlend2D order g
  else if g.dim = 3 then callHomog sub .simplex .warpBlend3D order g
  else none

mutual
/-- Calling a factory; `none` is an exception.
Code: meshmode/discretization/poly_element.py:691-1010. -/
def Factory.call (sub : Subclass) (recnodes : Bool) (g : MGroup) : Factory → Option BuiltGroup
  | .homog mesh cls order => callHomog sub mesh cls order g
  | .recursive order family => callRecursive sub order family g
  | .given order nodes => callGiven sub order nodes g
  | .default order => callDefault sub recnodes order g
  | .typeMap order map => callMap sub recnodes g order map
/-- `TypeMappingGroupFactory.__call__`, meshmode/discretization/poly_element.py:767-782: the entry with
exactly the type of the group. -/
def callMap (sub : Subclass) (recnodes : Bool) (g : MGroup) (order : Nat) :
    List (MGroupClass × Entry) → Option BuiltGroup
  | [] => none
  | p :: map =>
    if p.1 = g.type then callEntry sub recnodes g order p.2 else callMap sub recnodes g order map
/-- The use of an entry, meshmode/discretization/poly_element.py:777-782. -/
def callEntry (sub : Subclass) (recnodes : Bool) (g : MGroup) (order : Nat) :
    Entry → Option BuiltGroup
  | .cls c => some { cls := c, group := g, order := order }
  | .factory f => f.call sub recnodes g
  | .other => none
end

/-- `InterpolatoryEdgeClusteredGroupFactory`, meshmode/discretization/poly_element.py:941-952. -/
def edgeClusteredFactory (order : Nat) : Factory :=
  .typeMap order [(.simplex, .factory (.default order)), (.tensor, .cls .gaussLobatto)]

/-- `InterpolatoryQuadratureGroupFactory`, meshmode/discretization/poly_element.py:955-966. -/
def interpQuadratureFactory (order : Nat) : Factory :=
  .typeMap order [(.simplex, .cls .interpQuadratureSimplex), (.tensor, .cls .gaussLegendre)]

/-- `InterpolatoryEquidistantGroupFactory`, meshmode/discretization/poly_element.py:969-979. -/
def equidistantFactory (order : Nat) : Factory :=
  .typeMap order [(.simplex, .cls .equidistantSimplex), (.tensor, .cls .equidistantTensor)]

/-- `QuadratureGroupFactory`, meshmode/discretization/poly_element.py:982-992. -/
def quadratureFactory (order : Nat) : Factory :=
  .typeMap order [(.simplex, .cls .quadratureSimplex), (.tensor, .cls .gaussLegendre)]

/-- `ModalGroupFactory`, meshmode/discretization/poly_element.py:995-1004. -/
def modalFactory (order : Nat) : Factory :=
  .typeMap order [(.simplex, .cls .modalSimplex), (.tensor, .cls .modalTensor)]

/-! ## Properties -/

/-- The default factory calls what `default_simplex_group_factory` returns. -/
theorem call_default_eq (sub : Subclass) (recnodes : Bool) (order : Nat) (g : MGroup) :
    (Factory.default order).call sub recnodes g =
      (defaultSimplexFactory recnodes g.dim order).bind (Factory.call sub recnodes g) := by
  simp only [Factory.call, callDefault, defaultSimplexFactory]
  split
  · simp [Factory.call]
  · split
    · simp [Factory.call]
    · split <;> simp [Factory.call]

theorem callMap_eq (sub : Subclass) (recnodes : Bool) (g : MGroup) (order : Nat)
    (map : List (MGroupClass × Entry)) :
    callMap sub recnodes g order map =
      (map.lookup g.type).bind (callEntry sub recnodes g order) := by
  induction map with
  | nil => simp [callMap]
  | cons p map ih =>
    obtain ⟨c, e⟩ := p
    rw [callMap, List.lookup]
    by_cases h : c = g.type
    · simp [h]
    · have h' : (g.type == c) = false := by simpa using fun h2 => h h2.symm
      simp only [h, if_false, h', ih]

/-- C40: a type-mapping factory (a mapping has one entry for each type) yields a group exactly when the
entry for *the* type of the mesh group does: a class is constructed with the mesh group and the order
of the factory, a factory is called. -/
theorem C40_type_map (sub : Subclass) (recnodes : Bool) (order : Nat)
    (map : List (MGroupClass × Entry)) (hm : (map.map Prod.fst).Nodup) (g : MGroup) (d : BuiltGroup) :
    (Factory.typeMap order map).call sub recnodes g = some d ↔
      (∃ c, (g.type, Entry.cls c) ∈ map ∧ d = { cls := c, group := g, order := order }) ∨
      (∃ f, (g.type, Entry.factory f) ∈ map ∧ f.call sub recnodes g = some d) := by
  have hmem : ∀ e, map.lookup g.type = some e ↔ (g.type, e) ∈ map := by
    intro e
    constructor
    · intro h
      obtain ⟨l1, l2, h1, _⟩ := List.lookup_eq_some_iff.1 h
      rw [h1]
      simp
    · clear d
      intro h
      induction map with
      | nil => simp at h
      | cons p map ih =>
        obtain ⟨c, e'⟩ := p
        simp only [List.map_cons, List.nodup_cons] at hm
        rcases List.mem_cons.1 h with h1 | h1
        · simp only [Prod.mk.injEq] at h1
          simp [List.lookup, h1.1, h1.2]
        · have hne : c ≠ g.type := by
            rintro rfl
            exact hm.1 (List.mem_map_of_mem (f := Prod.fst) h1)
          have h' : (g.type == c) = false := by simpa using fun h2 => hne h2.symm
          rw [List.lookup, h']
          exact ih hm.2 h1
  rw [Factory.call, callMap_eq]
  constructor
  · intro h
    obtain ⟨e, he, h⟩ := Option.bind_eq_some_iff.1 h
    have he := (hmem e).1 he
    cases e with
    | cls c =>
      simp only [callEntry, Option.some.injEq] at h
      exact Or.inl ⟨c, he, h.symm⟩
    | factory f =>
      simp only [callEntry] at h
      exact Or.inr ⟨f, he, h⟩
    | other => simp [callEntry] at h
  · rintro (⟨c, hc, rfl⟩ | ⟨f, hf, h⟩)
    · rw [(hmem _).2 hc]
      simp [callEntry]
    · rw [(hmem _).2 hf]
      simpa [callEntry] using h

/-- C40: a type-mapping factory rejects a mesh group whose type is not a key, even if one of its base
classes is. -/
theorem C40_type_map_rejects (sub : Subclass) (recnodes : Bool) (order : Nat)
    (map : List (MGroupClass × Entry)) (g : MGroup) (h : g.type ∉ map.map Prod.fst) :
    (Factory.typeMap order map).call sub recnodes g = none := by
  rw [Factory.call, callMap_eq]
  have : map.lookup g.type = none := by
    rw [List.lookup_eq_none_iff]
    intro p hp
    simp only [bne_iff_ne, ne_eq]
    rintro h2
    exact h (List.mem_map.2 ⟨p, hp, h2.symm⟩)
  rw [this]
  rfl

/-- C40: an order-based factory yields a group of its class and order for exactly the instances of its
mesh group class. -/
theorem C40_order_based (sub : Subclass) (recnodes : Bool) (mesh : MGroupClass) (cls : DGroupClass)
    (order : Nat) (g : MGroup) (d : BuiltGroup) :
    (Factory.homog mesh cls order).call sub recnodes g = some d ↔
      sub g.type mesh = true ∧ d = { cls := cls, group := g, order := order } := by
  rw [Factory.call, callHomog]
  split
  · rename_i h
    simp [h, eq_comm]
  · rename_i h
    simp [h]

/-- C40: the factories with further arguments take exactly the simplex groups. -/
theorem C40_further_arguments (sub : Subclass) (recnodes : Bool) (order x : Nat) (g : MGroup)
    (d : BuiltGroup) :
    ((Factory.recursive order x).call sub recnodes g = some d ↔ sub g.type .simplex = true ∧
      d = { cls := .recursiveNodes, group := g, order := order, extra := some x }) ∧
    ((Factory.given order x).call sub recnodes g = some d ↔ sub g.type .simplex = true ∧
      d = { cls := .givenNodes, group := g, order := order, extra := some x }) := by
  simp only [Factory.call, callRecursive, callGiven]
  constructor <;>
  · split
    · rename_i h
      simp [h, eq_comm]
    · rename_i h
      simp [h]

/-- Whether a discretization group class is for simplices (`true`) or hypercubes.
Code: meshmode/discretization/poly_element.py:167-690. -/
def DGroupClass.kind : DGroupClass → Option MGroupClass
  | .modalSimplex | .quadratureSimplex | .interpQuadratureSimplex | .warpBlend | .warpBlend2D
  | .warpBlend3D | .recursiveNodes | .equidistantSimplex | .givenNodes => some .simplex
  | .modalTensor | .gaussLegendre | .gaussLobatto | .equidistantTensor => some .tensor
  | .user _ => none

/-- The type-mapping factories of the library. (Specification or proof vocabulary, no code.) -/
def libraryFactories (order : Nat) : List Factory :=
  [edgeClusteredFactory order, interpQuadratureFactory order, equidistantFactory order,
    quadratureFactory order, modalFactory order]

/-- C40: each type-mapping factory of the library takes simplex and tensor product groups (with
`recursivenodes` installed or up to dimension 3), and gives a group for that shape, with that mesh group
and that order. -/
theorem C40_library (sub : Subclass) (hs : ∀ c, sub c c = true) (recnodes : Bool) (order : Nat)
    (F : Factory) (hF : F ∈ libraryFactories order) (g : MGroup)
    (hg : recnodes = true ∨ g.dim ≤ 3) :
    ((∃ d, F.call sub recnodes g = some d) ↔ g.type = .simplex ∨ g.type = .tensor) ∧
    (∀ d, F.call sub recnodes g = some d → d.cls.kind = some g.type ∧ d.group = g ∧
      d.order = order) := by
  obtain ⟨t, dim⟩ := g
  simp only [libraryFactories, List.mem_cons, List.not_mem_nil, or_false] at hF
  have key : ∀ e1 c2, (∀ g' : MGroup, g'.type = .simplex → g'.dim = dim →
      ∃ d, callEntry sub recnodes g' order e1 = some d ∧ d.cls.kind = some .simplex ∧
        d.group = g' ∧ d.order = order) → DGroupClass.kind c2 = some .tensor →
      ((∃ d, (Factory.typeMap order [(.simplex, e1), (.tensor, .cls c2)]).call sub recnodes ⟨t, dim⟩ =
        some d) ↔ t = .simplex ∨ t = .tensor) ∧
      (∀ d, (Factory.typeMap order [(.simplex, e1), (.tensor, .cls c2)]).call sub recnodes ⟨t, dim⟩ =
        some d → d.cls.kind = some t ∧ d.group = ⟨t, dim⟩ ∧ d.order = order) := by
    intro e1 c2 h1 h2
    simp only [Factory.call, callMap]
    cases t with
    | simplex =>
      obtain ⟨d, hd, h3⟩ := h1 ⟨.simplex, dim⟩ rfl rfl
      simp only [if_true, hd, Option.some.injEq]
      refine ⟨by simp, ?_⟩
      rintro _ rfl
      exact h3
    | tensor =>
      simp [callEntry]
      exact h2
    | user n => simp
  have hcls : ∀ c, DGroupClass.kind c = some .simplex → ∀ g' : MGroup, g'.type = .simplex →
      g'.dim = dim → ∃ d, callEntry sub recnodes g' order (.cls c) = some d ∧
        d.cls.kind = some .simplex ∧ d.group = g' ∧ d.order = order :=
    fun c hc g' _ _ => ⟨_, rfl, hc, rfl, rfl⟩
  have hdef : ∀ g' : MGroup, g'.type = .simplex → g'.dim = dim →
      ∃ d, callEntry sub recnodes g' order (.factory (.default order)) = some d ∧
        d.cls.kind = some .simplex ∧ d.group = g' ∧ d.order = order := by
    intro g' ht hd
    simp only [callEntry, Factory.call, callDefault, callRecursive, callHomog, ht, hs, if_true]
    simp only at hg
    rcases hg with hg | hg
    · simp [hg, DGroupClass.kind]
    · cases recnodes with
      | true => simp [DGroupClass.kind]
      | false =>
        by_cases h2 : g'.dim ≤ 2
        · simp [h2, DGroupClass.kind]
        · have h3 : g'.dim = 3 := by omega
          simp [h3, DGroupClass.kind]
  rcases hF with rfl | rfl | rfl | rfl | rfl
  · exact key _ _ hdef rfl
  · exact key _ _ (hcls _ rfl) rfl
  · exact key _ _ (hcls _ rfl) rfl
  · exact key _ _ (hcls _ rfl) rfl
  · exact key _ _ (hcls _ rfl) rfl

/-- A subclass of simplex groups (class 7): taken by the order-based factory, rejected by the mapping. -/
def exSub : Subclass := fun c c' => c == c' || (c == .user 7 && c' == .simplex)

example : (Factory.homog .simplex .modalSimplex 3).call exSub true ⟨.user 7, 2⟩ =
    some { cls := .modalSimplex, group := ⟨.user 7, 2⟩, order := 3 } ∧
    (modalFactory 3).call exSub true ⟨.user 7, 2⟩ = none ∧
    (edgeClusteredFactory 3).call exSub true ⟨.simplex, 2⟩ =
      some { cls := .recursiveNodes, group := ⟨.simplex, 2⟩, order := 3, extra := some familyLgl } := by
  refine ⟨by decide, ?_, ?_⟩ <;> rfl

/-- Without `recursivenodes` there are no default nodes in four dimensions. -/
theorem C40_no_default_nodes (sub : Subclass) (order dim : Nat) (h : 3 < dim) :
    (edgeClusteredFactory order).call sub false ⟨.simplex, dim⟩ = none := by
  have h1 : ¬ dim ≤ 2 := by omega
  have h2 : dim ≠ 3 := by omega
  simp [edgeClusteredFactory, Factory.call, callMap, callEntry, callDefault, h1, h2]

/-- The classes which the documentation of the factories promises, by shape: interpolation and quadrature
nodes, equidistant nodes, quadrature nodes alone, and modes.
(Specification or proof vocabulary, no code.) -/
def promisedClasses (order : Nat) : List (Factory × DGroupClass × DGroupClass) :=
  [(interpQuadratureFactory order, .interpQuadratureSimplex, .gaussLegendre),
    (equidistantFactory order, .equidistantSimplex, .equidistantTensor),
    (quadratureFactory order, .quadratureSimplex, .gaussLegendre),
    (modalFactory order, .modalSimplex, .modalTensor)]

/-- C40: exactly which class is constructed by the factories of the library. -/
theorem C40_classes (sub : Subclass) (recnodes : Bool) (order dim : Nat) (F : Factory)
    (simplex tensor : DGroupClass) (hF : (F, simplex, tensor) ∈ promisedClasses order) :
    F.call sub recnodes ⟨.simplex, dim⟩ =
      some { cls := simplex, group := ⟨.simplex, dim⟩, order := order } ∧
    F.call sub recnodes ⟨.tensor, dim⟩ =
      some { cls := tensor, group := ⟨.tensor, dim⟩, order := order } := by
  simp only [promisedClasses, List.mem_cons, List.not_mem_nil, or_false, Prod.mk.injEq] at hF
  rcases hF with ⟨rfl, rfl, rfl⟩ | ⟨rfl, rfl, rfl⟩ | ⟨rfl, rfl, rfl⟩ | ⟨rfl, rfl, rfl⟩ <;>
    simp [interpQuadratureFactory, equidistantFactory, quadratureFactory, modalFactory, Factory.call,
      callMap, callEntry]

/-- C40: the edge-clustered factory gives Gauss-Lobatto nodes on hypercubes; on simplices it gives
recursive nodes of the `lgl` family if `recursivenodes` is there, and otherwise the warp-and-blend nodes of
the dimension. -/
theorem C40_edge_clustered (sub : Subclass) (hs : ∀ c, sub c c = true) (order dim : Nat) :
    (∀ recnodes, (edgeClusteredFactory order).call sub recnodes ⟨.tensor, dim⟩ =
      some { cls := .gaussLobatto, group := ⟨.tensor, dim⟩, order := order }) ∧
    (edgeClusteredFactory order).call sub true ⟨.simplex, dim⟩ =
      some { cls := .recursiveNodes, group := ⟨.simplex, dim⟩, order := order,
             extra := some familyLgl } ∧
    (dim ≤ 2 → (edgeClusteredFactory order).call sub false ⟨.simplex, dim⟩ =
      some { cls := .warpBlend2D, group := ⟨.simplex, dim⟩, order := order }) ∧
    (dim = 3 → (edgeClusteredFactory order).call sub false ⟨.simplex, dim⟩ =
      some { cls := .warpBlend3D, group := ⟨.simplex, dim⟩, order := order }) := by
  refine ⟨?_, ?_, ?_, ?_⟩
  · simp [edgeClusteredFactory, Factory.call, callMap, callEntry]
  · simp [edgeClusteredFactory, Factory.call, callMap, callEntry, callDefault, callRecursive, hs]
  · intro h
    simp [edgeClusteredFactory, Factory.call, callMap, callEntry, callDefault, callHomog, hs, h]
  · intro h
    simp [edgeClusteredFactory, Factory.call, callMap, callEntry, callDefault, callHomog, hs, h]

/-- C40: `default_simplex_group_factory` returns a factory unless `recursivenodes` is missing and the dimension is more
than three; called with a simplex group of this dimension, the factory makes a group of the order asked for with
recursive nodes of the `lgl` family if `recursivenodes` is there, else with the warp-and-blend nodes of the dimension;
`_DefaultPolynomialSimplexGroupFactory` makes the same groups. -/
theorem C40_default_simplex (sub : Subclass) (hs : ∀ c, sub c c = true) (recnodes : Bool) (order dim : Nat) :
    (defaultSimplexFactory recnodes dim order = none ↔ recnodes = false ∧ 3 < dim) ∧
    (∀ F, defaultSimplexFactory recnodes dim order = some F →
      (recnodes = true → F.call sub recnodes ⟨.simplex, dim⟩ =
        some { cls := .recursiveNodes, group := ⟨.simplex, dim⟩, order := order, extra := some familyLgl }) ∧
      (recnodes = false → dim ≤ 2 → F.call sub recnodes ⟨.simplex, dim⟩ =
        some { cls := .warpBlend2D, group := ⟨.simplex, dim⟩, order := order }) ∧
      (recnodes = false → dim = 3 → F.call sub recnodes ⟨.simplex, dim⟩ =
        some { cls := .warpBlend3D, group := ⟨.simplex, dim⟩, order := order })) ∧
    ∀ g : MGroup, (Factory.default order).call sub recnodes g =
      (defaultSimplexFactory recnodes g.dim order).bind (Factory.call sub recnodes g) := by
  refine ⟨?_, ?_, call_default_eq sub recnodes order⟩
  · unfold defaultSimplexFactory
    cases recnodes
    · simp only [Bool.false_eq_true, if_false, true_and]
      split
      · simp; omega
      · split
        · simp; omega
        · simp; omega
    · simp
  · intro F h
    unfold defaultSimplexFactory at h
    refine ⟨?_, ?_, ?_⟩
    · rintro rfl
      simp only [if_true, Option.some.injEq] at h
      subst h
      simp [Factory.call, callRecursive, hs]
    · rintro rfl hd
      simp only [Bool.false_eq_true, if_false, hd, if_true, Option.some.injEq] at h
      subst h
      simp [Factory.call, callHomog, hs]
    · rintro rfl rfl
      simp only [Bool.false_eq_true, if_false, if_true, Option.some.injEq, show ¬ 3 ≤ 2 by omega] at h
      subst h
      simp [Factory.call, callHomog, hs]

example : (defaultSimplexFactory false 3 4).isSome = true ∧ (defaultSimplexFactory false 4 4).isSome = false ∧
    (defaultSimplexFactory true 4 4).isSome = true := by
  decide

example : (edgeClusteredFactory 2).call exSub false ⟨.simplex, 3⟩ =
      some { cls := .warpBlend3D, group := ⟨.simplex, 3⟩, order := 2 } ∧
    (quadratureFactory 2).call exSub false ⟨.simplex, 3⟩ =
      some { cls := .quadratureSimplex, group := ⟨.simplex, 3⟩, order := 2 } := by
  constructor <;> rfl

end Meshmode
