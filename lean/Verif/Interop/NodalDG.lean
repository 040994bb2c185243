import Verif.Mesh.Nodal
import Mathlib.LinearAlgebra.Matrix.Defs
import Mathlib.Algebra.Field.Rat

/-!
# Interoperation with the nodal DG codes (C99)

meshmode/interop/nodal_dg.py:95-182.  The Octave session is a map from names of variables to values; `push` sets a
variable, `pull` reads it.  The Octave programs that are run (`Globals1D`, `StartUp1D`, `Nodes2D`, …) are parameters.
-/
namespace Meshmode

/-! ## Model -/

/-- A two-dimensional array of numbers, as numpy and Octave have them.
Code: meshmode/interop/nodal_dg.py:152, 175, 180. -/
structure OctMat (K : Type) where
  rows : Nat
  cols : Nat
  entries : Matrix (Fin rows) (Fin cols) K

/-- `.T`, meshmode/interop/nodal_dg.py:152, 175, 180. -/
def OctMat.T {K : Type} (a : OctMat K) : OctMat K := ⟨a.cols, a.rows, a.entries.transpose⟩

/-- A value of an Octave variable: a number, a row of coordinates, a matrix, or the table of vertex numbers with the
number of its columns.  Code: meshmode/interop/nodal_dg.py:111-119. -/
inductive OctVal (K : Type) where
  | num (n : Nat)
  | row (l : List K)
  | mat (a : OctMat K)
  | table (cols : Nat) (l : List (List Int))

/-- The variables of the Octave session. Code: meshmode/interop/nodal_dg.py:66-71. -/
abbrev OctState (K : Type) := String → Option (OctVal K)

/-- `octave.push`, meshmode/interop/nodal_dg.py:111-119, 175. -/
def octPush {K : Type} (s : OctState K) (name : String) (v : OctVal K) : OctState K :=
  fun n => if n = name then some v else s n

/-- The Octave programs: `Globals*D` and `StartUp*D` change the variables, the unit nodes depend on dimension and
order, and do not exist for other dimensions.  Code: meshmode/interop/nodal_dg.py:110, 121, 134-147. -/
structure OctCodes (K : Type) where
  globals : Nat → OctState K → OctState K
  startUp : Nat → OctState K → OctState K
  unitNodes : Nat → Nat → Option (List (List K))

/-- What the context uses of a mesh: dimension, vertex coordinates for each axis, number of vertices, and for each
group the number of vertices of an element and the vertex numbers.  Code: meshmode/interop/nodal_dg.py:105-121. -/
structure OctMesh (K : Type) where
  dim : Nat
  nvertices : Nat
  vertices : List (List K)
  groups : List (Nat × List (List Nat))

/-- Exceptions. Code: meshmode/interop/nodal_dg.py:105-116, 131, 173. -/
inductive OctErr where
  /-- `ValueError`: not one group -/
  | groups
  /-- `IndexError` for `AXES` -/
  | axis
  /-- `UnboundLocalError` for `ax` -/
  | unbound
  /-- error in Octave: no such variable, or of another kind -/
  | octave
  deriving DecidableEq, Repr

/-- `AXES`, meshmode/interop/nodal_dg.py:93. -/
def octAxes : List String := ["x", "y", "z"]

/-- `V{AXES[ax].upper()}`, meshmode/interop/nodal_dg.py:114, 116, 150. -/
def octVertexAxes : List String := ["VX", "VY", "VZ"]

/-- The loop over the axes, meshmode/interop/nodal_dg.py:113-114; the remaining names and coordinates. -/
def pushVertices {K : Type} : List String → List (List K) → OctState K → OctState K × Option OctErr
  | _, [], s => (s, none)
  | [], _ :: _, s => (s, some .axis)
  | n :: ns, v :: vs, s => pushVertices ns vs (octPush s n (.row v))

/-- `set_mesh`, meshmode/interop/nodal_dg.py:95-121: the variables afterwards, and the exception if there is one. -/
def octSetMesh {K : Type} (codes : OctCodes K) (s : OctState K) (mesh : OctMesh K) (order : Nat) :
    OctState K × Option OctErr :=
  match mesh.groups with
  | [g] =>
    let s := codes.globals mesh.dim s
    let s := octPush s "Nv" (.num mesh.nvertices)
    let s := octPush s "K" (.num g.2.length)
    match pushVertices octVertexAxes mesh.vertices s with
    | (s, some e) => (s, some e)
    | (s, none) =>
      -- the last axis again, whose number is that of the loop
      match (octVertexAxes.zip mesh.vertices).getLast? with
      | none => (s, some .unbound)
      | some (n, v) =>
        let s := octPush s n (.row v)
        let s := octPush s "EToV" (.table g.1 (g.2.map fun el => el.map fun v : Nat => (v : Int) + 1))
        let s := octPush s "N" (.num order)
        (codes.startUp mesh.dim s, none)
  | _ => (s, some .groups)

/-- What `get_discr` makes: the mesh and the unit nodes of the discretization (which are those of the mesh).
Code: meshmode/interop/nodal_dg.py:155-170. -/
structure OctDiscr (K : Type) where
  order : Nat
  unitNodes : List (List K)
  vertices : List (List K)
  nodes : List (OctMat K)
  vertexIndices : List (List Int)

/-- `octave.pull` of coordinates, meshmode/interop/nodal_dg.py:150. -/
def pullRow {K : Type} (s : OctState K) (name : String) : Option (List K) :=
  match s name with
  | some (.row l) => some l
  | _ => none

/-- `octave.pull` of a matrix, meshmode/interop/nodal_dg.py:152, 180. -/
def pullMat {K : Type} (s : OctState K) (name : String) : Option (OctMat K) :=
  match s name with
  | some (.mat a) => some a
  | _ => none

/-- `octave.pull("EToV")` and its number of columns, meshmode/interop/nodal_dg.py:131, 153. -/
def pullTable {K : Type} (s : OctState K) (name : String) : Option (Nat × List (List Int)) :=
  match s name with
  | some (.table c l) => some (c, l)
  | _ => none

/-- `octave.pull("N")`, meshmode/interop/nodal_dg.py:156. -/
def pullNum {K : Type} (s : OctState K) (name : String) : Option Nat :=
  match s name with
  | some (.num n) => some n
  | _ => none

/-- `get_discr`, meshmode/interop/nodal_dg.py:123-170; `none` if Octave reports an error or a name is missing.  The
checks of `make_mesh` are left out. -/
def octGetDiscr {K : Type} (codes : OctCodes K) (s : OctState K) : Option (OctDiscr K) :=
  (pullTable s "EToV").bind fun tab =>
  (pullNum s "N").bind fun order =>
  let dim := tab.1 - 1
  (codes.unitNodes dim order).bind fun unit =>
  ((List.range dim).mapM fun ax => (octVertexAxes[ax]?).bind (pullRow s)).bind fun vertices =>
  ((List.range dim).mapM fun ax => ((octAxes[ax]?).bind (pullMat s)).map OctMat.T).bind fun nodes =>
  some ⟨order, unit, vertices, nodes, tab.2.map fun el => el.map fun v => v - 1⟩

/-- `push_dof_array`, meshmode/interop/nodal_dg.py:172-175; the arrays of the groups, elements first. -/
def octPushDof {K : Type} (s : OctState K) (name : String) (ary : List (OctMat K)) : Except OctErr (OctState K) :=
  match ary with
  | [a] => .ok (octPush s name (.mat a.T))
  | _ => .error .groups

/-- `pull_dof_array`, meshmode/interop/nodal_dg.py:177-182. -/
def octPullDof {K : Type} (s : OctState K) (name : String) : Except OctErr (List (OctMat K)) :=
  match pullMat s name with
  | some a => .ok [a.T]
  | none => .error .octave

/-! ## Specification -/

/-- The variables that describe the mesh. (Specification or proof vocabulary, no code.) -/
def octInputs : List String := ["Nv", "K", "VX", "VY", "VZ", "EToV", "N"]

/-- The variables hold the mesh: numbers of vertices and elements, coordinates, vertex numbers from one, order.
(Specification or proof vocabulary, no code.) -/
structure HoldsMesh {K : Type} (s : OctState K) (mesh : OctMesh K) (g : Nat × List (List Nat)) (order : Nat) : Prop where
  nv : s "Nv" = some (.num mesh.nvertices)
  nel : s "K" = some (.num g.2.length)
  coords : ∀ (ax : Nat) v, mesh.vertices[ax]? = some v → ∃ n, ["VX", "VY", "VZ"][ax]? = some n ∧ s n = some (.row v)
  numbers : s "EToV" = some (.table g.1 (g.2.map fun el => el.map fun v : Nat => (v : Int) + 1))
  order : s "N" = some (.num order)

/-- The start-up program leaves the description of the mesh as it is. (Specification or proof vocabulary, no code.) -/
def KeepsInputs {K : Type} (codes : OctCodes K) : Prop :=
  ∀ d s n, n ∈ octInputs → codes.startUp d s n = s n

/-! ## Lemmas -/

section
variable {K : Type}

theorem octPush_self (s : OctState K) (n : String) (v : OctVal K) : octPush s n v n = some v := by
  simp [octPush]

theorem octPush_other (s : OctState K) {n m : String} (v : OctVal K) (h : m ≠ n) : octPush s n v m = s m := by
  simp [octPush, h]

theorem pushVertices_spec {ns : List String} {vs : List (List K)} {s : OctState K} (hnd : ns.Nodup) :
    ((pushVertices ns vs s).2 = none ↔ vs.length ≤ ns.length) ∧
    ((pushVertices ns vs s).2 = none ∨ (pushVertices ns vs s).2 = some .axis) ∧
    (∀ m, m ∉ ns → (pushVertices ns vs s).1 m = s m) ∧
    (∀ (ax : Nat) n v, ns[ax]? = some n → vs[ax]? = some v → (pushVertices ns vs s).1 n = some (.row v)) := by
  induction ns generalizing vs s with
  | nil =>
    cases vs with
    | nil => simp [pushVertices]
    | cons v vs => simp [pushVertices]
  | cons n ns ih =>
    cases vs with
    | nil => simp [pushVertices]
    | cons v vs =>
      rw [List.nodup_cons] at hnd
      obtain ⟨h1, h2, h3, h4⟩ := ih (vs := vs) (s := octPush s n (.row v)) hnd.2
      simp only [pushVertices, List.length_cons, Nat.add_le_add_iff_right]
      refine ⟨h1, h2, ?_, ?_⟩
      · intro m hm
        rw [List.mem_cons, not_or] at hm
        rw [h3 m hm.2, octPush_other _ _ hm.1]
      · intro ax n' v' hn hv
        rcases ax with _ | ax
        · simp only [List.getElem?_cons_zero, Option.some.injEq] at hn hv
          subst hn hv
          rw [h3 _ hnd.1, octPush_self]
        · simp only [List.getElem?_cons_succ] at hn hv
          exact h4 ax n' v' hn hv

end

/-! ## C99 -/

section
variable {K : Type}

/-- C99: `set_mesh` raises exactly for meshes without vertices' coordinates, with more than three of them, or without
exactly one group; in the last case it changes nothing. -/
theorem C99_set_errors (codes : OctCodes K) (s : OctState K) (mesh : OctMesh K) (order : Nat) :
    ((octSetMesh codes s mesh order).2 = none ↔ mesh.groups.length = 1 ∧ 1 ≤ mesh.vertices.length ∧
      mesh.vertices.length ≤ 3) ∧
    (mesh.groups.length ≠ 1 → octSetMesh codes s mesh order = (s, some .groups)) ∧
    (mesh.groups.length = 1 → (mesh.vertices.length = 0 → (octSetMesh codes s mesh order).2 = some .unbound) ∧
      (3 < mesh.vertices.length → (octSetMesh codes s mesh order).2 = some .axis)) := by
  unfold octSetMesh
  rcases hg : mesh.groups with _ | ⟨g, _ | ⟨g', gs⟩⟩
  · simp
  · simp only [List.length_cons, List.length_nil]
    generalize octPush (octPush (codes.globals mesh.dim s) "Nv" _) "K" _ = s0
    obtain ⟨h1, h2, _, _⟩ := pushVertices_spec (ns := octVertexAxes) (vs := mesh.vertices) (s := s0) (by decide)
    have hl : octVertexAxes.length = 3 := rfl
    rw [hl] at h1
    have hlast : (octVertexAxes.zip mesh.vertices).getLast? = none ↔ mesh.vertices.length = 0 := by
      rw [List.getLast?_eq_none_iff, ← List.length_eq_zero_iff, List.length_zip, hl]
      omega
    rcases hp : pushVertices octVertexAxes mesh.vertices s0 with ⟨s1, e⟩
    rw [hp] at h1 h2
    cases e with
    | some e =>
      simp only [reduceCtorEq, false_iff, not_le, false_or, Option.some.injEq] at h1 h2 ⊢
      subst h2
      refine ⟨by omega, by simp, fun _ => ⟨by omega, fun _ => rfl⟩⟩
    | none =>
      simp only [true_iff] at h1
      cases hz : (octVertexAxes.zip mesh.vertices).getLast? with
      | none =>
        have := hlast.1 hz
        refine ⟨?_, by simp, fun _ => ⟨fun _ => rfl, by omega⟩⟩
        simp only [reduceCtorEq, false_iff]
        omega
      | some p =>
        have : ¬ mesh.vertices.length = 0 := fun h0 => by rw [hlast.2 h0] at hz; simp at hz
        obtain ⟨n, v⟩ := p
        simp only [true_iff]
        refine ⟨⟨trivial, Nat.one_le_iff_ne_zero.2 this, h1⟩, by simp, fun _ => ⟨fun h => absurd h this, fun h => absurd h (by omega)⟩⟩
  · simp

/-- C99: after `set_mesh`, with a start-up program that keeps them, the variables hold the mesh. -/
theorem C99_set_mesh {codes : OctCodes K} (hk : KeepsInputs codes) {s s' : OctState K} {mesh : OctMesh K}
    {order : Nat} (h : octSetMesh codes s mesh order = (s', none)) :
    ∃ g, mesh.groups = [g] ∧ HoldsMesh s' mesh g order := by
  unfold octSetMesh at h
  rcases hg : mesh.groups with _ | ⟨g, _ | ⟨g', gs⟩⟩
  · simp [hg] at h
  · refine ⟨g, rfl, ?_⟩
    simp only [hg] at h
    generalize hs0 : octPush (octPush (codes.globals mesh.dim s) "Nv" _) "K" _ = s0 at h
    obtain ⟨h1, _, h3, h4⟩ := pushVertices_spec (ns := octVertexAxes) (vs := mesh.vertices) (s := s0) (by decide)
    rcases hp : pushVertices octVertexAxes mesh.vertices s0 with ⟨s1, e⟩
    rw [hp] at h h1 h3 h4
    simp only at h1 h3 h4
    cases e with
    | some e => simp at h
    | none =>
      simp only at h
      cases hz : (octVertexAxes.zip mesh.vertices).getLast? with
      | none => simp [hz] at h
      | some p =>
        obtain ⟨n, v⟩ := p
        simp only [hz, Prod.mk.injEq, and_true] at h
        have hmem : (n, v) ∈ octVertexAxes.zip mesh.vertices := List.mem_of_getLast? hz
        obtain ⟨k, hkz⟩ := List.mem_iff_getElem?.1 hmem
        obtain ⟨hkn, hkv⟩ := (List.getElem?_zip_eq_some (z := (n, v))).1 hkz
        have hsame : octPush s1 n (.row v) = s1 := by
          funext m
          by_cases hm : m = n
          · subst hm
            rw [octPush_self, h4 k m v hkn hkv]
          · rw [octPush_other _ _ hm]
        rw [hsame] at h
        have hv : ∀ m, m ∈ octInputs → m ≠ "EToV" → m ≠ "N" → s' m = s1 m := by
          intro m hm h1 h2
          rw [← h, hk _ _ _ hm, octPush_other _ _ h2, octPush_other _ _ h1]
        have hNv : s0 "Nv" = some (.num mesh.nvertices) := by
          rw [← hs0, octPush_other _ _ (by decide), octPush_self]
        have hK : s0 "K" = some (.num g.2.length) := by rw [← hs0, octPush_self]
        refine ⟨?_, ?_, ?_, ?_, ?_⟩
        · rw [hv _ (by decide) (by decide) (by decide), h3 _ (by decide), hNv]
        · rw [hv _ (by decide) (by decide) (by decide), h3 _ (by decide), hK]
        · intro ax w hw
          have hax : ax < mesh.vertices.length := (List.getElem?_eq_some_iff.1 hw).1
          have hlen : mesh.vertices.length ≤ 3 := h1.1 rfl
          have hn' : octVertexAxes[ax]? = some (octVertexAxes[ax]'(by simp [octVertexAxes]; omega)) :=
            List.getElem?_eq_getElem _
          refine ⟨_, hn', ?_⟩
          have hne : ∀ m ∈ octVertexAxes, m ∈ octInputs ∧ m ≠ "EToV" ∧ m ≠ "N" := by decide
          obtain ⟨a1, a2, a3⟩ := hne _ (List.mem_of_getElem? hn')
          rw [hv _ a1 a2 a3]
          exact h4 ax _ w hn' hw
        · rw [← h, hk _ _ _ (by decide), octPush_other _ _ (by decide), octPush_self]
        · rw [← h, hk _ _ _ (by decide), octPush_self]
  · simp [hg] at h

/-- C99: variables that do not describe the mesh are as the Octave programs leave them: those before start-up are
the ones after the declaration of the global variables. -/
theorem C99_set_other {codes : OctCodes K} {s s' : OctState K} {mesh : OctMesh K} {order : Nat}
    (h : octSetMesh codes s mesh order = (s', none)) :
    ∃ s1, s' = codes.startUp mesh.dim s1 ∧ ∀ n, n ∉ octInputs → s1 n = codes.globals mesh.dim s n := by
  unfold octSetMesh at h
  rcases hg : mesh.groups with _ | ⟨g, _ | ⟨g', gs⟩⟩
  · simp [hg] at h
  · simp only [hg] at h
    generalize hs0 : octPush (octPush (codes.globals mesh.dim s) "Nv" _) "K" _ = s0 at h
    obtain ⟨_, _, h3, _⟩ := pushVertices_spec (ns := octVertexAxes) (vs := mesh.vertices) (s := s0) (by decide)
    rcases hp : pushVertices octVertexAxes mesh.vertices s0 with ⟨s1, e⟩
    rw [hp] at h h3
    simp only at h3
    cases e with
    | some e => simp at h
    | none =>
      simp only at h
      cases hz : (octVertexAxes.zip mesh.vertices).getLast? with
      | none => simp [hz] at h
      | some p =>
        obtain ⟨n, v⟩ := p
        simp only [hz, Prod.mk.injEq, and_true] at h
        refine ⟨_, h.symm, ?_⟩
        intro m hm
        have hn : n ∈ octVertexAxes := (List.of_mem_zip (List.mem_of_getLast? hz)).1
        have hsub : ∀ x ∈ octVertexAxes, x ∈ octInputs := by decide
        have hne : ∀ x ∈ octInputs, m ≠ x := fun x hx he => hm (he ▸ hx)
        rw [octPush_other _ _ (hne _ (by decide)), octPush_other _ _ (hne _ (by decide)),
          octPush_other _ _ (hne _ (hsub n hn)), h3 m fun hx => hm (hsub m hx), ← hs0,
          octPush_other _ _ (hne _ (by decide)), octPush_other _ _ (hne _ (by decide))]
  · simp [hg] at h

/-- C99: a discretization got after `set_mesh` has the order, the vertex numbers and the coordinates of the vertices
for as many axes as the dimension, of the mesh that was set; its nodes are the transposed arrays of the Octave
session. -/
theorem C99_get_discr {codes : OctCodes K} (hk : KeepsInputs codes) {s s' : OctState K} {mesh : OctMesh K}
    {order : Nat} (h : octSetMesh codes s mesh order = (s', none)) {g : Nat × List (List Nat)}
    (hg : mesh.groups = [g]) (hsimplex : g.1 = mesh.dim + 1) {d : OctDiscr K}
    (hd : octGetDiscr codes s' = some d) :
    d.order = order ∧ codes.unitNodes mesh.dim order = some d.unitNodes ∧
    d.vertexIndices = g.2.map (fun el => el.map fun v : Nat => (v : Int)) ∧
    (mesh.dim ≤ mesh.vertices.length → d.vertices = mesh.vertices.take mesh.dim) ∧
    d.nodes.length = mesh.dim ∧ ∀ (ax : Nat) a, d.nodes[ax]? = some a →
      ∃ n m, ["x", "y", "z"][ax]? = some n ∧ s' n = some (.mat m) ∧ a = ⟨m.cols, m.rows, m.entries.transpose⟩ := by
  obtain ⟨g', hg', hold⟩ := C99_set_mesh hk h
  rw [hg] at hg'
  obtain rfl : g = g' := by simpa using hg'
  unfold octGetDiscr at hd
  have ht : pullTable s' "EToV" = some (g.1, g.2.map fun el => el.map fun v : Nat => (v : Int) + 1) := by
    simp [pullTable, hold.numbers]
  have hn : pullNum s' "N" = some order := by simp [pullNum, hold.order]
  simp only [ht, hn, Option.bind_some, hsimplex, Nat.add_sub_cancel, Option.bind_eq_some_iff,
    Option.some.injEq] at hd
  obtain ⟨unit, hu, vs, hvs, ns, hns, rfl⟩ := hd
  obtain ⟨hvl, hve⟩ := mapM_getElem?_some hvs
  obtain ⟨hnl, hne⟩ := mapM_getElem?_some hns
  refine ⟨rfl, hu, ?_, ?_, by simpa using hnl, ?_⟩
  all_goals simp only
  · simp only [List.map_map]
    refine List.map_congr_left fun el _ => ?_
    simp
  · intro hle
    apply List.ext_getElem?
    intro ax
    by_cases hax : ax < mesh.dim
    · have hr : (List.range mesh.dim)[ax]? = some ax := by simp [hax]
      obtain ⟨v, hv', hv⟩ := hve ax ax hr
      show vs[ax]? = _
      rw [hv', List.getElem?_take_of_lt hax]
      obtain ⟨n, hn1, hn2⟩ := Option.bind_eq_some_iff.1 hv
      have hw := List.getElem?_eq_getElem (show ax < mesh.vertices.length by omega)
      obtain ⟨n', hn', hs'⟩ := hold.coords ax _ hw
      rw [show octVertexAxes[ax]? = ["VX", "VY", "VZ"][ax]? from rfl, hn'] at hn1
      obtain rfl := Option.some.inj hn1
      simp only [pullRow, hs', Option.some.injEq] at hn2
      rw [hw, hn2]
    · rw [List.getElem?_eq_none (by simp at hvl; omega), List.getElem?_eq_none (by simp; omega)]
  · intro ax a ha
    have hax : ax < mesh.dim := by
      have := (List.getElem?_eq_some_iff.1 ha).1
      simp at hnl
      omega
    obtain ⟨b, hb', hb⟩ := hne ax ax (by simp [hax])
    rw [show ns[ax]? = some a from ha] at hb'
    obtain rfl := Option.some.inj hb'
    obtain ⟨m, hm, rfl⟩ := Option.map_eq_some_iff.1 hb
    obtain ⟨n, hn1, hn2⟩ := Option.bind_eq_some_iff.1 hm
    refine ⟨n, m, hn1, ?_, rfl⟩
    unfold pullMat at hn2
    split at hn2
    · next hs => rw [hs, Option.some.inj hn2]
    · simp at hn2

/-- C99: for a mesh in as many dimensions as it has axes, the vertices come back. -/
theorem C99_vertices {codes : OctCodes K} (hk : KeepsInputs codes) {s s' : OctState K} {mesh : OctMesh K}
    {order : Nat} (h : octSetMesh codes s mesh order = (s', none)) {g : Nat × List (List Nat)}
    (hg : mesh.groups = [g]) (hsimplex : g.1 = mesh.dim + 1) (hvol : mesh.vertices.length = mesh.dim)
    {d : OctDiscr K} (hd : octGetDiscr codes s' = some d) : d.vertices = mesh.vertices := by
  rw [(C99_get_discr hk h hg hsimplex hd).2.2.2.1 (by omega), ← hvol, List.take_length]

/-- C99: `get_discr` succeeds after `set_mesh` exactly if there are unit nodes for the dimension and order and the
start-up program has made the coordinates of the nodes. -/
theorem C99_get_defined {codes : OctCodes K} (hk : KeepsInputs codes) {s s' : OctState K} {mesh : OctMesh K}
    {order : Nat} (h : octSetMesh codes s mesh order = (s', none)) {g : Nat × List (List Nat)}
    (hg : mesh.groups = [g]) (hsimplex : g.1 = mesh.dim + 1) (hdim : mesh.dim ≤ mesh.vertices.length) :
    (octGetDiscr codes s').isSome ↔ (codes.unitNodes mesh.dim order).isSome ∧
      ∀ ax < mesh.dim, ∃ n m, ["x", "y", "z"][ax]? = some n ∧ s' n = some (.mat m) := by
  constructor
  · intro hs
    obtain ⟨d, hd⟩ := Option.isSome_iff_exists.1 hs
    obtain ⟨_, h2, _, _, h5, h6⟩ := C99_get_discr hk h hg hsimplex hd
    refine ⟨by simp [h2], ?_⟩
    intro ax hax
    obtain ⟨n, m, h7, h8, _⟩ := h6 ax _ (List.getElem?_eq_getElem (by omega))
    exact ⟨n, m, h7, h8⟩
  · rintro ⟨hu, hx⟩
    obtain ⟨unit, hu⟩ := Option.isSome_iff_exists.1 hu
    obtain ⟨g', hg', hold⟩ := C99_set_mesh hk h
    rw [hg] at hg'
    obtain rfl : g = g' := by simpa using hg'
    have ht : pullTable s' "EToV" = some (g.1, g.2.map fun el => el.map fun v : Nat => (v : Int) + 1) := by
      simp [pullTable, hold.numbers]
    have hn : pullNum s' "N" = some order := by simp [pullNum, hold.order]
    have hv : ∃ vs, (List.range mesh.dim).mapM (fun ax => (octVertexAxes[ax]?).bind (pullRow s')) = some vs := by
      apply mapM_isSome_of
      intro ax hax
      have hax' : ax < mesh.dim := by simpa using hax
      obtain ⟨n, hn', hs⟩ := hold.coords ax _ (List.getElem?_eq_getElem (by omega))
      exact ⟨mesh.vertices[ax], by rw [show octVertexAxes[ax]? = ["VX", "VY", "VZ"][ax]? from rfl, hn']; simp [pullRow, hs]⟩
    have hm : ∃ ns, (List.range mesh.dim).mapM
        (fun ax => ((octAxes[ax]?).bind (pullMat s')).map OctMat.T) = some ns := by
      apply mapM_isSome_of
      intro ax hax
      obtain ⟨n, m, hn', hs⟩ := hx ax (by simpa using hax)
      exact ⟨m.T, by rw [show octAxes[ax]? = ["x", "y", "z"][ax]? from rfl, hn']; simp [pullMat, hs]⟩
    obtain ⟨vs, hvs⟩ := hv
    obtain ⟨ns, hns⟩ := hm
    unfold octGetDiscr
    simp only [ht, hn, Option.bind_some, hsimplex, Nat.add_sub_cancel, hu, hvs, hns, Option.isSome_some]

/-- C99: a degree-of-freedom array that is pushed can be pulled, from every session, and other variables stay. -/
theorem C99_push_pull {s s' : OctState K} {name : String} {ary : List (OctMat K)}
    (h : octPushDof s name ary = .ok s') :
    octPullDof s' name = .ok ary ∧ ∀ m, m ≠ name → s' m = s m := by
  unfold octPushDof at h
  split at h
  · simp only [Except.ok.injEq] at h
    subst h
    refine ⟨?_, fun m hm => octPush_other _ _ hm⟩
    simp only [octPullDof, pullMat, octPush_self]
    rfl
  · simp at h

/-- C99: pushing works exactly for arrays of one group, and otherwise raises `ValueError`. -/
theorem C99_push_errors (s : OctState K) (name : String) (ary : List (OctMat K)) :
    ((∃ s', octPushDof s name ary = .ok s') ↔ ary.length = 1) ∧
      (ary.length ≠ 1 → octPushDof s name ary = .error .groups) := by
  rcases ary with _ | ⟨a, _ | ⟨b, l⟩⟩ <;> simp [octPushDof]

/-- C99: what is pushed has the entry of element `e` and node `i` in row `i` and column `e`, where the nodal DG codes
expect it. -/
theorem C99_push_layout {s s' : OctState K} {name : String} {a : OctMat K}
    (h : octPushDof s name [a] = .ok s') :
    ∃ m : OctMat K, s' name = some (.mat m) ∧ ∃ (hr : m.rows = a.cols) (hc : m.cols = a.rows),
      ∀ (i : Fin m.rows) (e : Fin m.cols), m.entries i e = a.entries (Fin.cast hc e) (Fin.cast hr i) := by
  simp only [octPushDof, Except.ok.injEq] at h
  subst h
  exact ⟨a.T, octPush_self _ _ _, rfl, rfl, fun _ _ => rfl⟩

/-- C99: pulling works exactly for matrices, and gives one group. -/
theorem C99_pull_defined (s : OctState K) (name : String) :
    ((∃ ary, octPullDof s name = .ok ary) ↔ ∃ m, s name = some (.mat m)) ∧
      ∀ ary, octPullDof s name = .ok ary → ary.length = 1 := by
  unfold octPullDof pullMat
  rcases s name with _ | (_ | _ | _ | _) <;> simp

/-- C99: the coordinates of the nodes that are pulled are the nodes of the discretization. -/
theorem C99_nodes_agree {codes : OctCodes K} {s : OctState K} {d : OctDiscr K} (hd : octGetDiscr codes s = some d)
    {ax : Nat} {a : OctMat K} (ha : d.nodes[ax]? = some a) :
    ∃ n, ["x", "y", "z"][ax]? = some n ∧ octPullDof s n = .ok [a] := by
  unfold octGetDiscr at hd
  simp only [Option.bind_eq_some_iff, Option.some.injEq] at hd
  obtain ⟨tab, _, o, _, unit, _, vs, _, ns, hns, rfl⟩ := hd
  obtain ⟨hnl, hne⟩ := mapM_getElem?_some hns
  simp only at ha
  have hax : ax < tab.1 - 1 := by
    have := (List.getElem?_eq_some_iff.1 ha).1
    simp at hnl
    omega
  obtain ⟨b, hb', hb⟩ := hne ax ax (by simp [hax])
  rw [show ns[ax]? = some a from ha] at hb'
  obtain rfl := Option.some.inj hb'
  obtain ⟨m, hm, rfl⟩ := Option.map_eq_some_iff.1 hb
  obtain ⟨n, hn1, hn2⟩ := Option.bind_eq_some_iff.1 hm
  exact ⟨n, hn1, by simp [octPullDof, hn2]⟩

end

/-! ## Examples -/

/-- Programs that make the given nodes. (Example, no code.) -/
def exCodes : OctCodes ℚ where
  globals _ s := s
  startUp _ s := fun n => if n = "x" ∨ n = "y" then some (.mat ⟨2, 1, fun i _ => i.val⟩) else s n
  unitNodes d _ := if d = 1 then some [[-1, 1]] else none

/-- A segment, in the plane if there are two lists of coordinates. (Example, no code.) -/
def exOctMesh (v : List (List ℚ)) : OctMesh ℚ := ⟨1, 2, v, [(2, [[0, 1]])]⟩

theorem exCodes_keeps : KeepsInputs exCodes := by
  intro d s n hn
  have : n ≠ "x" ∧ n ≠ "y" := by
    constructor <;> (rintro rfl; revert hn; decide)
  simp [exCodes, this.1, this.2]

-- a segment is set and comes back
example : ∃ s' d, octSetMesh exCodes (fun _ => none) (exOctMesh [[3, 5]]) 1 = (s', none) ∧
    octGetDiscr exCodes s' = some d ∧ d.vertices = [[3, 5]] ∧ d.vertexIndices = [[0, 1]] ∧
    d.nodes.map (fun a => (a.rows, a.cols)) = [(1, 2)] := by
  refine ⟨_, _, rfl, rfl, ?_, ?_, ?_⟩ <;> decide +kernel

/-- C99: of a mesh with more coordinates than dimensions (a curve in the plane) the further coordinates are lost. -/
theorem C99_ambient_counterexample :
    ∃ s' d, octSetMesh exCodes (fun _ => none) (exOctMesh [[3, 5], [7, 8]]) 1 = (s', none) ∧
      octGetDiscr exCodes s' = some d ∧ d.vertices = [[3, 5]] ∧ pullRow s' "VY" = some [7, 8] := by
  refine ⟨_, _, rfl, rfl, ?_, ?_⟩ <;> decide +kernel

-- two groups are rejected
example : (octSetMesh exCodes (fun _ => none) ⟨1, 2, [[3, 5]], [(2, [[0, 1]]), (2, [])]⟩ 1).2 = some .groups := rfl

end Meshmode
