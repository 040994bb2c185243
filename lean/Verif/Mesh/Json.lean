import Verif.Mesh.Lazy
import Mathlib.Data.List.Basic

/-!
# Export as JSON (C91)

`to_json` (meshmode/mesh/io.py:579-621).
-/
namespace Meshmode

/-! ## Model -/

/-- The structure of lists, dictionaries and scalars that is returned. Code: meshmode/mesh/io.py:577-621. -/
inductive Json (Q : Type) where
  | null
  | bool (b : Bool)
  | int (n : Nat)
  | float (q : Q)
  | str (s : String)
  | list (l : List (Json Q))
  | dict (l : List (String × Json Q))

/-- An array with two axes, the second of length `cols`. Code: meshmode/mesh/io.py:586-588, 611. -/
structure Arr2 (α : Type) where
  cols : Nat
  rows : List (List α)
  deriving DecidableEq

/-- An array with three axes, the second and third of lengths `mid` and `last`.
Code: meshmode/mesh/io.py:587. -/
structure Arr3 (α : Type) where
  mid : Nat
  last : Nat
  slabs : List (List (List α))
  deriving DecidableEq

/-- An element group: the name of its class, order, vertices of the elements, nodes by coordinate and element,
unit nodes by coordinate. Code: meshmode/mesh/io.py:581-590. -/
structure JGroup (Q : Type) where
  cls : String
  order : Nat
  vertexIndices : Option (Arr2 Nat)
  nodes : Arr3 Q
  unitNodes : Arr2 Q
  deriving DecidableEq

/-- A mesh; `F` is facial adjacency. Code: meshmode/mesh/io.py:594-621. -/
structure JMesh (Q F : Type) where
  vertices : Option (Arr2 Q)
  groups : List (JGroup Q)
  lazy : LazyMesh (List Nat × List Nat) F
  deriving DecidableEq

section
variable {Q F : Type}

/-- `ary.tolist()` with two axes. Code: meshmode/mesh/io.py:586-588, 611. -/
def Arr2.tolist {α : Type} (f : α → Json Q) (a : Arr2 α) : Json Q := .list (a.rows.map fun r => .list (r.map f))

/-- `ary.tolist()` with three axes. Code: meshmode/mesh/io.py:587. -/
def Arr3.tolist {α : Type} (f : α → Json Q) (a : Arr3 α) : Json Q :=
  .list (a.slabs.map fun s => .list (s.map fun r => .list (r.map f)))

/-- `group_to_json`, meshmode/mesh/io.py:583-592; `none` is the failed assertion.  `dim` is
`unit_nodes.shape[0]`. -/
def groupToJson (g : JGroup Q) : Option (Json Q) :=
  g.vertexIndices.map fun vi => .dict [
    ("type", .str g.cls),
    ("order", .int g.order),
    ("vertex_indices", vi.tolist .int),
    ("nodes", g.nodes.tolist .float),
    ("unit_nodes", g.unitNodes.tolist .float),
    ("dim", .int g.unitNodes.rows.length)]

/-- `nodal_adjacency_to_json`, meshmode/mesh/io.py:596-605, given what the access to the property gave;
`none` is another exception. -/
def nodalToJson : Access (List Nat × List Nat) → Option (Json Q)
  | .unavailable => some .null
  | .failed => none
  | .ok na => some (.dict [("neighbors_starts", .list (na.1.map .int)), ("neighbors", .list (na.2.map .int))])

/-- `mesh.is_conforming`, meshmode/mesh/io.py:620. -/
def conformingToJson : Option Bool → Json Q
  | none => .null
  | some b => .bool b

/-- `mesh.vertices`, meshmode/mesh/io.py:614. -/
def verticesToJson : Option (Arr2 Q) → Json Q
  | none => .null
  | some a => a.tolist .float

/-- `to_json`, meshmode/mesh/io.py:579-621; `cn` is the nodal adjacency that would be computed from the
vertices.  Returns the structure (`none`: an exception) and the mesh, in which nodal adjacency may have been
stored. -/
def toJson (cn : Option (List Nat × List Nat)) (m : JMesh Q F) : Option (Json Q) × JMesh Q F :=
  match m.groups.mapM groupToJson with
  | none => (none, m)
  | some gs =>
    let r := accessSlot m.lazy.conforming cn m.lazy.nodal
    let m' := { m with lazy := { m.lazy with nodal := r.2 } }
    match nodalToJson r.1 with
    | none => (none, m')
    | some na => (some (.dict [
        ("version", .int 1),
        ("vertices", verticesToJson m.vertices),
        ("groups", .list gs),
        ("nodal_adjacency", na),
        ("facial_adjacency_groups", .null),
        ("is_conforming", conformingToJson m.lazy.conforming)]), m')

end

/-! ## Specification -/

section
variable {Q F : Type}

/-- The rows have the length that is stored. (Specification or proof vocabulary, no code.) -/
def Arr2.WF {α : Type} (a : Arr2 α) : Prop := ∀ r ∈ a.rows, r.length = a.cols

/-- The slabs and rows have the lengths that are stored. (Specification or proof vocabulary, no code.) -/
def Arr3.WF {α : Type} (a : Arr3 α) : Prop :=
  ∀ s ∈ a.slabs, s.length = a.mid ∧ ∀ r ∈ s, r.length = a.last

/-- Arrays are well-formed, and there are coordinates and elements. (Specification or proof vocabulary, no
code.) -/
structure JGroup.OK (g : JGroup Q) : Prop where
  vi : ∀ a, g.vertexIndices = some a → a.WF ∧ a.rows ≠ []
  nodes : g.nodes.WF ∧ g.nodes.slabs ≠ [] ∧ g.nodes.mid ≠ 0
  unit : g.unitNodes.WF ∧ g.unitNodes.rows ≠ []

/-- The mesh has coordinates, and its groups have elements. (Specification or proof vocabulary, no code.) -/
structure JMesh.OK (m : JMesh Q F) : Prop where
  vertices : ∀ a, m.vertices = some a → a.WF ∧ a.rows ≠ []
  groups : ∀ g ∈ m.groups, g.OK

/-! ## Lemmas -/

theorem rows_tolist_inj {α : Type} {f : α → Json Q} (hf : ∀ a b, f a = f b → a = b) {l l' : List (List α)}
    (h : (l.map fun r => Json.list (r.map f)) = l'.map fun r => .list (r.map f)) : l = l' := by
  refine (List.map_injective_iff.2 ?_) h
  intro a b hab
  simp only [Json.list.injEq] at hab
  exact (List.map_injective_iff.2 fun _ _ => hf _ _) hab

theorem Arr2.tolist_rows {α : Type} {f : α → Json Q} (hf : ∀ a b, f a = f b → a = b) {a b : Arr2 α}
    (h : a.tolist f = b.tolist f) : a.rows = b.rows := by
  simp only [Arr2.tolist, Json.list.injEq] at h
  exact rows_tolist_inj hf h

theorem Arr2.tolist_inj {α : Type} {f : α → Json Q} (hf : ∀ a b, f a = f b → a = b) {a b : Arr2 α}
    (ha : a.WF) (hne : a.rows ≠ []) (hb : b.WF) (h : a.tolist f = b.tolist f) : a = b := by
  have hr := Arr2.tolist_rows hf h
  obtain ⟨r, hr0⟩ := List.exists_mem_of_ne_nil _ hne
  have h1 := ha r hr0
  have h2 := hb r (hr ▸ hr0)
  cases a; cases b
  simp only [Arr2.mk.injEq] at *
  exact ⟨by omega, hr⟩

theorem Arr3.tolist_inj {α : Type} {f : α → Json Q} (hf : ∀ a b, f a = f b → a = b) {a b : Arr3 α}
    (ha : a.WF) (hne : a.slabs ≠ []) (hmid : a.mid ≠ 0) (hb : b.WF) (h : a.tolist f = b.tolist f) : a = b := by
  simp only [Arr3.tolist, Json.list.injEq] at h
  have hs : a.slabs = b.slabs := by
    refine (List.map_injective_iff.2 ?_) h
    intro x y hxy
    simp only [Json.list.injEq] at hxy
    exact rows_tolist_inj hf hxy
  obtain ⟨s, hs0⟩ := List.exists_mem_of_ne_nil _ hne
  obtain ⟨h1, h2⟩ := ha s hs0
  obtain ⟨h3, h4⟩ := hb s (hs ▸ hs0)
  obtain ⟨r, hr0⟩ := List.exists_mem_of_ne_nil s (by rintro rfl; exact hmid h1.symm)
  have h5 := h2 r hr0
  have h6 := h4 r hr0
  cases a; cases b
  simp only [Arr3.mk.injEq] at *
  exact ⟨by omega, by omega, hs⟩

theorem groupToJson_inj {g g' : JGroup Q} (hg : g.OK) (hg' : g'.OK) {j : Json Q}
    (h : groupToJson g = some j) (h' : groupToJson g' = some j) : g = g' := by
  simp only [groupToJson, Option.map_eq_some_iff] at h h'
  obtain ⟨vi, hvi, rfl⟩ := h
  obtain ⟨vi', hvi', h⟩ := h'
  simp only [Json.dict.injEq, List.cons.injEq, Prod.mk.injEq, Json.str.injEq, Json.int.injEq, true_and, and_true]
    at h
  obtain ⟨h1, h2, h3, h4, h5, _⟩ := h
  have e3 := Arr2.tolist_inj (fun _ _ h => by simpa using h) (hg'.vi _ hvi').1 (hg'.vi _ hvi').2 (hg.vi _ hvi).1 h3
  have e4 := Arr3.tolist_inj (fun _ _ h => by simpa using h) hg'.nodes.1 hg'.nodes.2.1 hg'.nodes.2.2 hg.nodes.1 h4
  have e5 := Arr2.tolist_inj (fun _ _ h => by simpa using h) hg'.unit.1 hg'.unit.2 hg.unit.1 h5
  cases g; cases g'
  simp only [JGroup.mk.injEq] at *
  subst e3
  exact ⟨h1.symm, h2.symm, by rw [hvi, hvi'], e4.symm, e5.symm⟩

theorem groups_inj {gs gs' : List (JGroup Q)} (hg : ∀ g ∈ gs, g.OK) (hg' : ∀ g ∈ gs', g.OK) {js : List (Json Q)}
    (h : gs.mapM groupToJson = some js) (h' : gs'.mapM groupToJson = some js) : gs = gs' := by
  induction gs generalizing gs' js with
  | nil =>
    simp at h
    subst h
    cases gs' with
    | nil => rfl
    | cons g gs' =>
      simp only [List.mapM_cons, Option.pure_def, Option.bind_eq_bind, Option.bind_eq_some_iff] at h'
      obtain ⟨_, _, _, _, h'⟩ := h'
      cases h'
  | cons g gs ih =>
    simp only [List.mapM_cons, Option.pure_def, Option.bind_eq_bind, Option.bind_eq_some_iff] at h
    obtain ⟨j, h1, js', h2, h3⟩ := h
    cases h3
    cases gs' with
    | nil => simp at h'
    | cons g' gs' =>
      simp only [List.mapM_cons, Option.pure_def, Option.bind_eq_bind, Option.bind_eq_some_iff] at h'
      obtain ⟨j', h4, js'', h5, h6⟩ := h'
      cases h6
      rw [groupToJson_inj (hg g (by simp)) (hg' g' (by simp)) h1 h4,
        ih (fun x hx => hg x (by simp [hx])) (fun x hx => hg' x (by simp [hx])) h2 h5]

theorem toJson_fst {cn : Option (List Nat × List Nat)} {m : JMesh Q F} {j : Json Q}
    (h : (toJson cn m).1 = some j) : ∃ gs na, m.groups.mapM groupToJson = some gs ∧
      nodalToJson (specAccess m.lazy.conforming cn m.lazy.nodal) = some na ∧
      j = .dict [("version", .int 1), ("vertices", verticesToJson m.vertices), ("groups", .list gs),
        ("nodal_adjacency", na), ("facial_adjacency_groups", .null),
        ("is_conforming", conformingToJson m.lazy.conforming)] := by
  unfold toJson at h
  split at h
  · cases h
  · rename_i gs hgs
    simp only at h
    split at h
    · cases h
    · rename_i na hna
      cases h
      rw [accessSlot_fst] at hna
      exact ⟨gs, na, hgs, hna, rfl⟩

/-! ## Properties -/

/-- C91: two meshes with the same JSON have the same vertices, the same groups (class names, orders, vertices of
elements, nodes, unit nodes), the same answer for nodal adjacency and the same conformity.  Partial: facial
adjacency is lost, and groups must have elements (see the counterexamples). -/
theorem C91_faithful_partial {cn cn' : Option (List Nat × List Nat)} {m m' : JMesh Q F} (hm : m.OK) (hm' : m'.OK)
    {j : Json Q} (h : (toJson cn m).1 = some j) (h' : (toJson cn' m').1 = some j) :
    m.vertices = m'.vertices ∧ m.groups = m'.groups ∧ m.lazy.conforming = m'.lazy.conforming ∧
      specAccess m.lazy.conforming cn m.lazy.nodal = specAccess m'.lazy.conforming cn' m'.lazy.nodal := by
  obtain ⟨gs, na, h1, h2, rfl⟩ := toJson_fst h
  obtain ⟨gs', na', h3, h4, h5⟩ := toJson_fst h'
  simp only [Json.dict.injEq, List.cons.injEq, Prod.mk.injEq, Json.list.injEq, true_and, and_true] at h5
  obtain ⟨h6, rfl, rfl, h7⟩ := h5
  refine ⟨?_, groups_inj hm.groups hm'.groups h1 h3, ?_, ?_⟩
  · cases hv : m.vertices with
    | none =>
      cases hv' : m'.vertices with
      | none => rfl
      | some b => rw [hv, hv'] at h6; simp [verticesToJson, Arr2.tolist] at h6
    | some a =>
      cases hv' : m'.vertices with
      | none => rw [hv, hv'] at h6; simp [verticesToJson, Arr2.tolist] at h6
      | some b =>
        rw [hv, hv'] at h6
        have := Arr2.tolist_inj (fun _ _ h => by simpa using h) (hm.vertices a hv).1 (hm.vertices a hv).2
          (hm'.vertices b hv').1 h6
        rw [this]
  · revert h7
    rcases m.lazy.conforming with _ | b <;> rcases m'.lazy.conforming with _ | b' <;> simp [conformingToJson]
  · revert h2 h4
    rcases specAccess m.lazy.conforming cn m.lazy.nodal with ⟨a1, a2⟩ | _ | _ <;>
    rcases specAccess m'.lazy.conforming cn' m'.lazy.nodal with ⟨b1, b2⟩ | _ | _ <;>
      simp only [nodalToJson, Option.some.injEq, reduceCtorEq, false_imp_iff, imp_self, implies_true,
        Access.ok.injEq] <;> intro h2 h4 <;> rw [← h4] at h2 <;>
      simp only [Json.dict.injEq, List.cons.injEq, Prod.mk.injEq, Json.list.injEq, true_and, and_true,
        reduceCtorEq] at h2
    obtain ⟨h8, h9⟩ := h2
    rw [(List.map_injective_iff.2 fun x y h => by simpa using h) h8,
      (List.map_injective_iff.2 fun x y h => by simpa using h) h9]

/-- C91: the call succeeds exactly if all groups have vertex indices and nodal adjacency is either unavailable
or obtained; unavailable nodal adjacency is no error. -/
theorem C91_defined (cn : Option (List Nat × List Nat)) (m : JMesh Q F) :
    (∃ j, (toJson cn m).1 = some j) ↔ (∀ g ∈ m.groups, g.vertexIndices ≠ none) ∧
      specAccess m.lazy.conforming cn m.lazy.nodal ≠ .failed := by
  have hgs : (∃ gs, m.groups.mapM groupToJson = some gs) ↔ ∀ g ∈ m.groups, g.vertexIndices ≠ none := by
    generalize m.groups = l
    induction l with
    | nil => simp
    | cons g l ih =>
      simp only [List.mapM_cons, Option.pure_def, Option.bind_eq_bind, Option.bind_eq_some_iff, List.forall_mem_cons,
        ← ih, ne_eq]
      constructor
      · rintro ⟨_, j, h1, gs, h2, _⟩
        refine ⟨fun h => ?_, gs, h2⟩
        simp [groupToJson, h] at h1
      · rintro ⟨h1, gs, h2⟩
        obtain ⟨vi, hvi⟩ := Option.ne_none_iff_exists'.1 h1
        exact ⟨_, _, by simp only [groupToJson, hvi]; rfl, gs, h2, rfl⟩
  constructor
  · rintro ⟨j, h⟩
    obtain ⟨gs, na, h1, h2, _⟩ := toJson_fst h
    exact ⟨hgs.1 ⟨gs, h1⟩, fun hf => by rw [hf] at h2; cases h2⟩
  · rintro ⟨h1, h2⟩
    obtain ⟨gs, hgs⟩ := hgs.2 h1
    rw [← accessSlot_fst] at h2
    unfold toJson
    rw [hgs]
    simp only
    revert h2
    generalize (accessSlot m.lazy.conforming cn m.lazy.nodal).1 = a
    intro h2
    cases a with
    | ok na => exact ⟨_, rfl⟩
    | unavailable => exact ⟨_, rfl⟩
    | failed => exact absurd rfl h2

/-- C91: exporting does not change what can be observed of the mesh: a second call gives the same structure, and
every access to adjacency the same answer. -/
theorem C91_repeat (cn : Option (List Nat × List Nat)) (cf : Option F) (m : JMesh Q F) :
    (toJson cn (toJson cn m).2).1 = (toJson cn m).1 ∧ (toJson cn m).2.vertices = m.vertices ∧
      (toJson cn m).2.groups = m.groups ∧
      ∀ op, specOut cn cf (toJson cn m).2.lazy op = specOut cn cf m.lazy op := by
  have hacc := specAccess_accessSlot m.lazy.conforming cn m.lazy.nodal
  unfold toJson
  cases hgs : m.groups.mapM groupToJson with
  | none =>
    simp only
    rw [hgs]
    exact ⟨rfl, trivial, trivial, fun _ => trivial⟩
  | some gs =>
    simp only
    have hops : ∀ op, specOut cn cf ({ m.lazy with nodal := (accessSlot m.lazy.conforming cn m.lazy.nodal).2 }) op =
        specOut cn cf m.lazy op := by
      intro op
      cases op with
      | nodal => simp only [specOut, hacc]
      | facial => rfl
    cases hna : nodalToJson (Q := Q) (accessSlot m.lazy.conforming cn m.lazy.nodal).1 with
    | none =>
      simp only [hgs]
      rw [accessSlot_fst] at hna ⊢
      rw [hacc, hna]
      exact ⟨rfl, trivial, trivial, hops⟩
    | some na =>
      simp only [hgs]
      rw [accessSlot_fst] at hna ⊢
      rw [hacc, hna]
      exact ⟨rfl, trivial, trivial, hops⟩

end

/-! ## Counterexamples and examples -/

/-- One triangle. (Example, no code.) -/
def exJGroup : JGroup Int :=
  ⟨"SimplexElementGroup", 1, some ⟨3, [[0, 1, 2]]⟩, ⟨1, 3, [[[0, 1, 0]], [[0, 0, 1]]]⟩, ⟨3, [[-1, 1, -1], [-1, -1, 1]]⟩⟩

/-- A mesh of one triangle with the given facial adjacency. (Example, no code.) -/
def exJMesh (f : Slot Nat) : JMesh Int Nat :=
  ⟨some ⟨3, [[0, 1, 0], [0, 0, 1]]⟩, [exJGroup], ⟨some true, .missing, f⟩⟩

/-- A group without elements, with `n` vertices per element. (Example, no code.) -/
def exJEmpty (n : Nat) : JGroup Int :=
  ⟨"SimplexElementGroup", 1, some ⟨n, []⟩, ⟨0, 3, [[], []]⟩, ⟨3, [[-1, 1, -1], [-1, -1, 1]]⟩⟩

/-- C91: meshes that differ in facial adjacency (which a user gave) have the same JSON. -/
theorem C91_facial_counterexample : ∃ m m' : JMesh Int Nat, m.OK ∧ m'.OK ∧ m.lazy.facial ≠ m'.lazy.facial ∧
    m.lazy.facial ≠ .missing ∧ m'.lazy.facial ≠ .missing ∧
    (toJson (some ([0, 0], [])) m).1 = (toJson (some ([0, 0], [])) m').1 ∧
    ∃ j, (toJson (some ([0, 0], [])) m).1 = some j := by
  have hok : ∀ f, (exJMesh f).OK := by
    intro f
    refine ⟨?_, ?_⟩
    · intro a ha
      cases ha
      exact ⟨by simp [Arr2.WF], by simp⟩
    · intro g hg
      simp only [exJMesh, List.mem_singleton] at hg
      subst hg
      refine ⟨?_, ?_, ?_⟩
      · intro a ha
        cases ha
        exact ⟨by simp [Arr2.WF], by simp⟩
      · simp [exJGroup, Arr3.WF]
      · simp [exJGroup, Arr2.WF]
  refine ⟨exJMesh (.data 0), exJMesh (.data 1), hok _, hok _, by decide, by decide, by decide, rfl, _, rfl⟩

/-- C91: groups without elements that differ in the number of vertices per element have the same JSON. -/
theorem C91_empty_counterexample : exJEmpty 3 ≠ exJEmpty 4 ∧ groupToJson (exJEmpty 3) = groupToJson (exJEmpty 4) :=
  ⟨by decide, rfl⟩

-- a mesh whose nodal adjacency is unavailable is exported
example : ∃ j, (toJson none (⟨none, [exJGroup], ⟨none, .disabled, .disabled⟩⟩ : JMesh Int Nat)).1 = some j :=
  ⟨_, rfl⟩

-- a group without vertex indices is not
example : (toJson none (⟨none, [{ exJGroup with vertexIndices := none }], ⟨none, .disabled, .disabled⟩⟩ :
    JMesh Int Nat)).1 = none := rfl

end Meshmode
