import Verif.Discr.Factory
import Verif.Vis.Fields
import Mathlib.Data.List.Forall2

/-!
# Making and copying visualizers (C93)

`make_visualizer` (meshmode/discretization/visualization.py:1374-1419), `Visualizer.copy_with_same_connectivity`
(592-627), `_check_discr_same_connectivity` (252-261) and the choice of the connectivity (693-719).  Objects have
numbers, so that `is` can be told from equality.  The contents of the connectivity are in `Vis/Connectivity`; here a
connectivity object is its kind together with the element groups it was made from, of which its contents are a
function (meshmode/discretization/visualization.py:360-447, 479-545).
-/
namespace Meshmode

/-! ## Model -/

/-- Exceptions. Code: meshmode/discretization/visualization.py:612, 615, 701-715, 1402;
meshmode/discretization/poly_element.py:465-466, 771-775; meshmode/discretization/connection/same_mesh.py:55-57, 74. -/
inductive LifeErr where
  | valueError | assertion | runtime | notImplemented
  /-- the group factory does not take a mesh element group -/
  | factory
  deriving DecidableEq, Repr

/-- A mesh: which object it is, and type, dimension and number of elements of its groups.
Code: meshmode/mesh/__init__.py:199-330, 1135-1200. -/
structure VMesh where
  id : Nat
  groups : List (MGroup × Nat)
  deriving DecidableEq, Repr

/-- An element group of a discretization, with its number of elements.
Code: meshmode/discretization/__init__.py:100-180. -/
abbrev VGroup := BuiltGroup × Nat

/-- A discretization: which object it is, its mesh, its group factory, its groups, its real type (by number).
Code: meshmode/discretization/__init__.py:387-432. -/
structure VDiscr where
  id : Nat
  mesh : VMesh
  factory : Factory
  groups : List VGroup
  real : Nat

/-- What is fixed while the program runs: the subclasses among mesh element groups, and whether `recursivenodes` can
be imported. Code: meshmode/discretization/poly_element.py:723, 1019-1023. -/
structure VEnv where
  sub : Subclass
  recnodes : Bool

/-- `[group_factory(mg) for mg in mesh.groups]`, meshmode/discretization/__init__.py:409. -/
def buildGroups (env : VEnv) (f : Factory) (m : VMesh) : Option (List VGroup) :=
  m.groups.mapM fun p => (f.call env.sub env.recnodes p.1).map (·, p.2)

/-- `Discretization.__init__`, meshmode/discretization/__init__.py:387-432 (the array context is not modelled); the new
object has the number `id`. -/
def VDiscr.make (env : VEnv) (id : Nat) (m : VMesh) (f : Factory) (real : Nat) : Except LifeErr VDiscr :=
  match buildGroups env f m with
  | none => .error .factory
  | some gs => .ok ⟨id, m, f, gs, real⟩

/-- `discretization_key`, meshmode/discretization/__init__.py:188-200, meshmode/discretization/poly_element.py:405-406,
461-466, 636-637, 660-661, 683-684; `none` is the `NotImplementedError`.  User classes keep the method of the base
class. -/
def discrKey (g : BuiltGroup) : Option (DGroupClass × Nat × Nat × Option Nat) :=
  match g.cls with
  | .givenNodes => none
  | .recursiveNodes => some (g.cls, g.group.dim, g.order, g.extra)
  | c => some (c, g.group.dim, g.order, none)

/-- The `all` of `_check_discr_same_connectivity`, meshmode/discretization/visualization.py:258-261: it stops at the
first pair of groups that differ. -/
def sameGroups : List VGroup → List VGroup → Except LifeErr Bool
  | (g, n) :: l, (g', n') :: l' =>
    match discrKey g, discrKey g' with
    | some k, some k' => if k = k' ∧ n = n' then sameGroups l l' else .ok false
    | _, _ => .error .notImplemented
  | _, _ => .ok true

/-- `_check_discr_same_connectivity`, meshmode/discretization/visualization.py:252-261. -/
def sameConnectivity (d d' : VDiscr) : Except LifeErr Bool :=
  if d.groups.length ≠ d'.groups.length then .ok false else sameGroups d.groups d'.groups

/-- The `all` of `make_visualizer`, meshmode/discretization/visualization.py:1405-1406 (the groups belong to the same
mesh, so there are as many of them). -/
def sameKeys : List VGroup → List VGroup → Except LifeErr Bool
  | (g, _) :: l, (g', _) :: l' =>
    match discrKey g, discrKey g' with
    | some k, some k' => if k = k' then sameKeys l l' else .ok false
    | _, _ => .error .notImplemented
  | _, _ => .ok true

/-- A batch of a connection between discretizations of the same mesh: source group, elements (the same on both
sides), and the unit nodes, as the group to which they belong.
Code: meshmode/discretization/connection/same_mesh.py:63-84. -/
structure VBatch where
  fromGroup : Nat
  elements : List Nat
  nodesOf : BuiltGroup
  deriving DecidableEq, Repr

/-- Connections, meshmode/discretization/connection/direct.py:333-381. -/
inductive VConn where
  | identity (d : VDiscr)
  | direct (fromD toD : VDiscr) (groups : List (List VBatch)) (surjective : Bool)

/-- `from_discr`. Code: meshmode/discretization/connection/direct.py:315. -/
def VConn.fromD : VConn → VDiscr
  | .identity d => d
  | .direct d _ _ _ => d

/-- `to_discr`. Code: meshmode/discretization/connection/direct.py:316. -/
def VConn.toD : VConn → VDiscr
  | .identity d => d
  | .direct _ d _ _ => d

/-- The groups of the connection, meshmode/discretization/connection/same_mesh.py:62-85. -/
def visBatches (fs ts : List VGroup) : List (List VBatch) :=
  ((fs.zip ts).zipIdx).map fun p => [⟨p.2, List.range p.1.1.2, p.1.2.1⟩]

/-- `make_same_mesh_connection`, meshmode/discretization/connection/same_mesh.py:43-87 (the groups of the target are
nodal, as all those of a visualization discretization are; identifier types agree since the mesh is the same). -/
def visConnection (toD fromD : VDiscr) : Except LifeErr VConn :=
  if fromD.mesh.id ≠ toD.mesh.id then .error .valueError
  else if fromD.id = toD.id then .ok (.identity fromD)
  else .ok (.direct fromD toD (visBatches fromD.groups toD.groups) true)

/-- The two kinds of connectivity. Code: meshmode/discretization/visualization.py:325, 450. -/
inductive VtkKind where
  | linear | lagrange
  deriving DecidableEq, Repr

/-- A visualizer; the connectivity objects as the groups of the discretization that they were made for.
Code: meshmode/discretization/visualization.py:564-590. -/
structure VisState where
  conn : VConn
  shrink : Rat
  equidistant : Bool
  linear : Option (List VGroup)
  lagrange : Option (List VGroup)

/-- `Visualizer.__init__` without connectivity, meshmode/discretization/visualization.py:574-590. -/
def VisState.new (conn : VConn) (shrink : Option Rat) (equidistant : Bool) : VisState :=
  ⟨conn, shrink.getD 1, equidistant, none, none⟩

/-- `make_visualizer`, meshmode/discretization/visualization.py:1374-1419; `id` is the number of a new object. -/
def makeVisualizer (env : VEnv) (id : Nat) (d : VDiscr) (order : Option Nat) (shrink : Option Rat) (force : Bool) :
    Except LifeErr VisState :=
  if shrink = none ∧ force = false ∧ order = none then
    (visConnection d d).map fun c => .new c shrink force
  else
    match order with
    | none => .error .assertion
    | some o => do
      let v ← VDiscr.make env id d.mesh (if force then equidistantFactory o else edgeClusteredFactory o) d.real
      let same ← sameKeys d.groups v.groups
      let c ← visConnection (if same then d else v) d
      pure (.new c shrink force)

/-- `copy_with_same_connectivity`, meshmode/discretization/visualization.py:592-627; `id` is the number of a new
object. -/
def VisState.copySame (env : VEnv) (id : Nat) (w : VisState) (d : VDiscr) (skip : Bool) : Except LifeErr VisState := do
  if skip = false then
    let same ← sameConnectivity d w.conn.fromD
    if same = false then throw .valueError
  let v ← VDiscr.make env id d.mesh w.conn.toD.factory w.conn.toD.real
  match w.conn with
  | .identity _ => throw .assertion
  | .direct _ _ gs surj => pure ⟨.direct d v gs surj, w.shrink, w.equidistant, w.linear, w.lagrange⟩

/-- `_vtk_connectivity`, meshmode/discretization/visualization.py:710-719: the connectivity object and the visualizer
afterwards. -/
def VisState.query (w : VisState) (highOrder : Bool) : Except LifeErr (VtkKind × List VGroup) × VisState :=
  if highOrder then
    if w.equidistant = false then (.error .runtime, w)
    else
      match w.lagrange with
      | some gs => (.ok (.lagrange, gs), w)
      | none => (.ok (.lagrange, w.conn.toD.groups), { w with lagrange := some w.conn.toD.groups })
  else
    match w.linear with
    | some gs => (.ok (.linear, gs), w)
    | none => (.ok (.linear, w.conn.toD.groups), { w with linear := some w.conn.toD.groups })

/-- What a caller does with a visualizer: writes (which asks for a connectivity), or copies it for another
discretization and goes on with the copy. Code: meshmode/discretization/visualization.py:592-627, 710-719. -/
inductive LifeOp where
  | query (highOrder : Bool)
  | copy (id : Nat) (d : VDiscr)

/-- One such step. Code: meshmode/discretization/visualization.py:592-627, 710-719. -/
def VisState.stepLife (env : VEnv) (w : VisState) : LifeOp → Except LifeErr VisState
  | .query h => .ok (w.query h).2
  | .copy id d => w.copySame env id d false

/-- `vtk_visualize_mesh`, meshmode/mesh/visualization.py:349-370: the connectivity that is written; `orders` are the
orders of the groups, `real` the real type of the discretization. -/
def vtkVisualizeMesh (env : VEnv) (m : VMesh) (orders : List Nat) (real : Nat) (highOrder : Bool) :
    Except LifeErr (VtkKind × List VGroup) :=
  match orders.max? with
  | none => .error .valueError
  | some o => do
    let d ← VDiscr.make env 0 m (edgeClusteredFactory o) real
    let w ← makeVisualizer env 1 d (if highOrder then some o else none) none highOrder
    (w.query highOrder).1

/-- Several steps. Code: meshmode/discretization/visualization.py:592-627, 710-719. -/
def VisState.runLife (env : VEnv) (w : VisState) (ops : List LifeOp) : Except LifeErr VisState :=
  ops.foldlM (VisState.stepLife env) w

/-! ## Specification -/

/-- A discretization that was made by its constructor.
(Specification or proof vocabulary, no code.) -/
def VDiscr.Built (env : VEnv) (d : VDiscr) : Prop := buildGroups env d.factory d.mesh = some d.groups

/-- The documented contract of `discretization_key` as far as needed: the class of a group tells the type of the mesh
element group. (Specification or proof vocabulary, no code.) -/
def VDiscr.Shaped (shape : DGroupClass → MGroupClass) (d : VDiscr) : Prop :=
  ∀ g ∈ d.groups, g.1.group.type = shape g.1.cls

/-- The classes of groups with equidistant nodes. (Specification or proof vocabulary, no code.) -/
def DGroupClass.isEquidistant : DGroupClass → Bool
  | .equidistantSimplex | .equidistantTensor => true
  | _ => false

/-! ## Lemmas -/

mutual
theorem call_group {sub : Subclass} {rec : Bool} {g : MGroup} : ∀ {f : Factory} {d : BuiltGroup},
    f.call sub rec g = some d → d.group = g
  | .homog mesh cls order, d, h => by
    simp only [Factory.call, callHomog] at h
    split at h
    · cases h; rfl
    · cases h
  | .recursive order family, d, h => by
    simp only [Factory.call, callRecursive] at h
    split at h
    · cases h; rfl
    · cases h
  | .given order nodes, d, h => by
    simp only [Factory.call, callGiven] at h
    split at h
    · cases h; rfl
    · cases h
  | .default order, d, h => by
    simp only [Factory.call, callDefault, callRecursive, callHomog] at h
    repeat' split at h
    all_goals first | (cases h; rfl) | cases h
  | .typeMap order map, d, h => by
    simp only [Factory.call] at h
    exact callMap_group h
theorem callMap_group {sub : Subclass} {rec : Bool} {g : MGroup} {order : Nat} :
    ∀ {map : List (MGroupClass × Entry)} {d : BuiltGroup}, callMap sub rec g order map = some d → d.group = g
  | [], d, h => by simp [callMap] at h
  | (c, e) :: map, d, h => by
    simp only [callMap] at h
    split at h
    · exact callEntry_group h
    · exact callMap_group h
theorem callEntry_group {sub : Subclass} {rec : Bool} {g : MGroup} {order : Nat} :
    ∀ {e : Entry} {d : BuiltGroup}, callEntry sub rec g order e = some d → d.group = g
  | .cls c, d, h => by
    simp only [callEntry] at h
    cases h; rfl
  | .factory f, d, h => by
    simp only [callEntry] at h
    exact call_group h
  | .other, d, h => by simp [callEntry] at h
end

theorem buildGroups_mesh {env : VEnv} {f : Factory} {m : VMesh} {gs : List VGroup}
    (h : buildGroups env f m = some gs) : gs.map (fun g => (g.1.group, g.2)) = m.groups := by
  unfold buildGroups at h
  generalize m.groups = l at h ⊢
  induction l generalizing gs with
  | nil => cases h; rfl
  | cons p l ih =>
    rw [List.mapM_cons] at h
    obtain ⟨a, ha, h⟩ := Option.bind_eq_some_iff.1 h
    obtain ⟨b, hb, h⟩ := Option.bind_eq_some_iff.1 h
    cases h
    obtain ⟨c, hc, rfl⟩ := Option.map_eq_some_iff.1 ha
    rw [List.map_cons, ih hb, call_group hc]

theorem discrKey_spec {g g' : BuiltGroup} {k : DGroupClass × Nat × Nat × Option Nat} (h : discrKey g = some k)
    (h' : discrKey g' = some k) :
    g.cls = g'.cls ∧ g.group.dim = g'.group.dim ∧ g.order = g'.order ∧
      (g.cls = .recursiveNodes → g.extra = g'.extra) := by
  have key : ∀ x : BuiltGroup, discrKey x = some k → k.1 = x.cls ∧ k.2.1 = x.group.dim ∧ k.2.2.1 = x.order ∧
      (x.cls = .recursiveNodes → k.2.2.2 = x.extra) := by
    intro x hx
    unfold discrKey at hx
    split at hx
    · cases hx
    · cases hx; exact ⟨rfl, rfl, rfl, fun _ => rfl⟩
    · rename_i hne
      cases hx; exact ⟨rfl, rfl, rfl, fun h => absurd h hne⟩
  obtain ⟨a, b, c, e⟩ := key g h
  obtain ⟨a', b', c', e'⟩ := key g' h'
  exact ⟨a.symm.trans a', b.symm.trans b', c.symm.trans c', fun hr =>
    (e hr).symm.trans (e' ((a'.symm.trans a).trans hr))⟩

theorem sameGroups_true : ∀ {l l' : List VGroup}, l.length = l'.length → sameGroups l l' = .ok true →
    List.Forall₂ (fun g g' : VGroup => g.1.cls = g'.1.cls ∧ g.1.group.dim = g'.1.group.dim ∧
      g.1.order = g'.1.order ∧ g.2 = g'.2 ∧ (g.1.cls = .recursiveNodes → g.1.extra = g'.1.extra)) l l'
  | [], [], _, _ => .nil
  | (g, n) :: l, (g', n') :: l', hl, h => by
    simp only [sameGroups] at h
    split at h
    · rename_i k k' hk hk'
      split at h
      · rename_i hc
        obtain ⟨rfl, rfl⟩ := hc
        obtain ⟨h1, h2, h3, h4⟩ := discrKey_spec hk hk'
        exact .cons ⟨h1, h2, h3, rfl, h4⟩ (sameGroups_true (by simpa using hl) h)
      · cases h
    · cases h
  | [], _ :: _, hl, _ => by simp at hl
  | _ :: _, [], hl, _ => by simp at hl

theorem mesh_eq_of_same {env : VEnv} {shape : DGroupClass → MGroupClass} {d d' : VDiscr} (hb : d.Built env)
    (hb' : d'.Built env) (hs : d.Shaped shape) (hs' : d'.Shaped shape) (h : sameConnectivity d d' = .ok true) :
    d.mesh.groups = d'.mesh.groups := by
  unfold sameConnectivity at h
  split at h
  · cases h
  · rename_i hl
    simp only [ne_eq, not_not] at hl
    rw [← buildGroups_mesh hb, ← buildGroups_mesh hb']
    have hf := sameGroups_true hl h
    unfold VDiscr.Shaped at hs hs'
    generalize d.groups = l at *
    generalize d'.groups = l' at *
    clear h hl
    induction hf with
    | nil => rfl
    | cons hgg ht ih =>
      rename_i a a' l l'
      obtain ⟨⟨c, ⟨t, dm⟩, o, e⟩, n⟩ := a
      obtain ⟨⟨c', ⟨t', dm'⟩, o', e'⟩, n'⟩ := a'
      obtain ⟨h1, h2, h3, h4, -⟩ := hgg
      have t1 := hs _ (List.mem_cons_self ..)
      have t2 := hs' _ (List.mem_cons_self ..)
      simp only at h1 h2 h3 h4 t1 t2
      subst h1 h2 h3 h4
      rw [List.map_cons, List.map_cons, ih (fun g hg => hs g (List.mem_cons_of_mem _ hg))
        (fun g hg => hs' g (List.mem_cons_of_mem _ hg))]
      rw [t1, t2]

theorem buildGroups_congr {env : VEnv} {f : Factory} {m m' : VMesh} (h : m.groups = m'.groups) :
    buildGroups env f m = buildGroups env f m' := by
  unfold buildGroups
  rw [h]

theorem make_ok {env : VEnv} {id real : Nat} {m : VMesh} {f : Factory} {v : VDiscr}
    (h : VDiscr.make env id m f real = .ok v) :
    v = ⟨id, m, f, v.groups, real⟩ ∧ buildGroups env f m = some v.groups := by
  unfold VDiscr.make at h
  split at h
  · cases h
  · rename_i gs hgs
    cases h
    exact ⟨rfl, hgs⟩

/-- `copy_with_same_connectivity` with the checks: when it succeeds, and what it yields.
(Specification or proof vocabulary, no code.) -/
theorem copySame_ok {env : VEnv} {id : Nat} {w w' : VisState} {d : VDiscr} :
    w.copySame env id d false = .ok w' ↔
      sameConnectivity d w.conn.fromD = .ok true ∧
      ∃ v fd td gs surj, VDiscr.make env id d.mesh w.conn.toD.factory w.conn.toD.real = .ok v ∧
        w.conn = .direct fd td gs surj ∧
        w' = ⟨.direct d v gs surj, w.shrink, w.equidistant, w.linear, w.lagrange⟩ := by
  unfold VisState.copySame
  simp only [if_true]
  cases hs : sameConnectivity d w.conn.fromD with
  | error e => simp [bind, Except.bind]
  | ok b =>
    cases b with
    | false => simp [bind, Except.bind, throw, throwThe, MonadExceptOf.throw]
    | true =>
      cases hv : VDiscr.make env id d.mesh w.conn.toD.factory w.conn.toD.real with
      | error e => simp [bind, Except.bind]
      | ok v =>
        cases hc : w.conn with
        | identity x =>
          rw [hc] at hv
          simp [bind, Except.bind, throw, throwThe, MonadExceptOf.throw]
        | direct fd td gs surj =>
          rw [hc] at hv
          simp [bind, Except.bind, pure, Except.pure, eq_comm]

theorem sameKeys_true : ∀ {l l' : List VGroup}, l.length = l'.length → sameKeys l l' = .ok true →
    List.Forall₂ (fun g g' : VGroup => g.1.cls = g'.1.cls ∧ g.1.group.dim = g'.1.group.dim ∧
      g.1.order = g'.1.order ∧ (g.1.cls = .recursiveNodes → g.1.extra = g'.1.extra)) l l'
  | [], [], _, _ => .nil
  | (g, n) :: l, (g', n') :: l', hl, h => by
    simp only [sameKeys] at h
    split at h
    · rename_i k k' hk hk'
      split at h
      · rename_i hc
        subst hc
        exact .cons (discrKey_spec hk hk') (sameKeys_true (by simpa using hl) h)
      · cases h
    · cases h
  | [], _ :: _, hl, _ => by simp at hl
  | _ :: _, [], hl, _ => by simp at hl

theorem sameKeys_defined : ∀ {l l' : List VGroup}, (∀ g ∈ l, g.1.cls ≠ .givenNodes) →
    (∀ g ∈ l', g.1.cls ≠ .givenNodes) → ∃ b, sameKeys l l' = .ok b
  | [], _, _, _ => ⟨true, by simp [sameKeys]⟩
  | _ :: _, [], _, _ => ⟨true, by simp [sameKeys]⟩
  | (g, n) :: l, (g', n') :: l', h, h' => by
    have key : ∀ x : BuiltGroup, x.cls ≠ .givenNodes → ∃ k, discrKey x = some k := by
      intro x hx
      unfold discrKey
      split
      · rename_i hc
        exact absurd hc hx
      · exact ⟨_, rfl⟩
      · exact ⟨_, rfl⟩
    obtain ⟨k, hk⟩ := key g (h _ (List.mem_cons_self ..))
    obtain ⟨k', hk'⟩ := key g' (h' _ (List.mem_cons_self ..))
    simp only [sameKeys, hk, hk']
    split
    · exact sameKeys_defined (fun x hx => h x (List.mem_cons_of_mem _ hx))
        fun x hx => h' x (List.mem_cons_of_mem _ hx)
    · exact ⟨false, rfl⟩

/-- `make_visualizer` with a visualization order: when it succeeds, and what it yields.
(Specification or proof vocabulary, no code.) -/
theorem makeVisualizer_order {env : VEnv} {id o : Nat} {d : VDiscr} {shrink : Option Rat} {force : Bool} {w : VisState} :
    makeVisualizer env id d (some o) shrink force = .ok w ↔
      ∃ v same c, VDiscr.make env id d.mesh (if force then equidistantFactory o else edgeClusteredFactory o) d.real =
          .ok v ∧ sameKeys d.groups v.groups = .ok same ∧ visConnection (if same then d else v) d = .ok c ∧
        w = .new c shrink force := by
  unfold makeVisualizer
  rw [if_neg (by simp)]
  simp only
  constructor
  · intro h
    cases hv : VDiscr.make env id d.mesh (if force then equidistantFactory o else edgeClusteredFactory o) d.real with
    | error e => rw [hv] at h; cases h
    | ok v =>
      rw [hv] at h
      simp only [bind, Except.bind] at h
      cases hk : sameKeys d.groups v.groups with
      | error e => rw [hk] at h; cases h
      | ok same =>
        rw [hk] at h
        simp only at h
        cases hc : visConnection (if same then d else v) d with
        | error e => rw [hc] at h; cases h
        | ok c =>
          rw [hc] at h
          cases h
          exact ⟨v, same, c, rfl, hk, hc, rfl⟩
  · rintro ⟨v, same, c, h1, h2, h3, rfl⟩
    simp only [h1, h2, h3, bind, Except.bind, pure, Except.pure]

theorem visConnection_self (d : VDiscr) : visConnection d d = .ok (.identity d) := by
  simp [visConnection]

theorem visConnection_new {env : VEnv} {id : Nat} {d v : VDiscr} {f : Factory} {real : Nat}
    (h : VDiscr.make env id d.mesh f real = .ok v) (hid : id ≠ d.id) :
    visConnection v d = .ok (.direct d v (visBatches d.groups v.groups) true) := by
  obtain ⟨hv, _⟩ := make_ok h
  unfold visConnection
  rw [hv]
  simp only [ne_eq, not_true, if_false]
  rw [if_neg (Ne.symm hid)]

/-- What holds for every visualizer. (Specification or proof vocabulary, no code.) -/
structure VisState.Sound (env : VEnv) (shape : DGroupClass → MGroupClass) (w : VisState) : Prop where
  built : w.conn.fromD.Built env
  shaped : w.conn.fromD.Shaped shape
  toBuilt : w.conn.toD.Built env
  mesh : w.conn.toD.mesh = w.conn.fromD.mesh
  linear : w.linear = none ∨ w.linear = some w.conn.toD.groups
  lagrange : w.lagrange = none ∨ w.lagrange = some w.conn.toD.groups
  batches : ∀ fd td gs surj, w.conn = .direct fd td gs surj → gs = visBatches fd.groups td.groups ∧ surj = true

theorem makeVisualizer_sound {env : VEnv} {shape : DGroupClass → MGroupClass} {id : Nat} {d : VDiscr}
    {order : Option Nat} {shrink : Option Rat} {force : Bool} {w : VisState} (hid : id ≠ d.id) (hb : d.Built env)
    (hs : d.Shaped shape) (h : makeVisualizer env id d order shrink force = .ok w) :
    w.Sound env shape ∧ w.conn.fromD = d ∧ w.shrink = shrink.getD 1 ∧ w.equidistant = force := by
  have hself : VisState.Sound env shape (.new (.identity d) shrink force) :=
    ⟨hb, hs, hb, rfl, .inl rfl, .inl rfl, by intro _ _ _ _ hh; cases hh⟩
  cases order with
  | none =>
    unfold makeVisualizer at h
    split at h
    · rw [visConnection_self] at h
      cases h
      exact ⟨hself, rfl, rfl, rfl⟩
    · cases h
  | some o =>
    obtain ⟨v, same, c, hv, hk, hc, rfl⟩ := makeVisualizer_order.1 h
    cases same with
    | true =>
      rw [if_pos rfl, visConnection_self] at hc
      cases hc
      exact ⟨hself, rfl, rfl, rfl⟩
    | false =>
      rw [if_neg (by simp), visConnection_new hv hid] at hc
      cases hc
      obtain ⟨hv1, hv2⟩ := make_ok hv
      refine ⟨⟨hb, hs, ?_, ?_, .inl rfl, .inl rfl, ?_⟩, rfl, rfl, rfl⟩
      · simp only [VisState.new, VConn.toD, VDiscr.Built]
        rw [hv1]
        exact hv2
      · simp only [VisState.new, VConn.toD, VConn.fromD]
        rw [hv1]
      · intro _ _ _ _ hh
        cases hh
        exact ⟨rfl, rfl⟩

theorem query_sound {env : VEnv} {shape : DGroupClass → MGroupClass} {w : VisState} (h : w.Sound env shape)
    (hi : Bool) : (w.query hi).2.Sound env shape ∧ (w.query hi).2.conn = w.conn ∧
      (w.query hi).2.shrink = w.shrink ∧ (w.query hi).2.equidistant = w.equidistant := by
  obtain ⟨h1, h2, h3, h4, h5, h6, h7⟩ := h
  unfold VisState.query
  split
  · split
    · exact ⟨⟨h1, h2, h3, h4, h5, h6, h7⟩, rfl, rfl, rfl⟩
    · split
      · exact ⟨⟨h1, h2, h3, h4, h5, h6, h7⟩, rfl, rfl, rfl⟩
      · exact ⟨⟨h1, h2, h3, h4, h5, .inr rfl, h7⟩, rfl, rfl, rfl⟩
  · split
    · exact ⟨⟨h1, h2, h3, h4, h5, h6, h7⟩, rfl, rfl, rfl⟩
    · exact ⟨⟨h1, h2, h3, h4, .inr rfl, h6, h7⟩, rfl, rfl, rfl⟩

theorem query_result {env : VEnv} {shape : DGroupClass → MGroupClass} {w : VisState} (h : w.Sound env shape)
    (hi : Bool) : (w.query hi).1 =
      if hi then if w.equidistant then .ok (.lagrange, w.conn.toD.groups) else .error .runtime
      else .ok (.linear, w.conn.toD.groups) := by
  unfold VisState.query
  cases hi with
  | true =>
    simp only [if_true]
    cases he : w.equidistant with
    | false => simp
    | true =>
      rcases h.lagrange with hl | hl <;> simp [hl]
  | false =>
    rcases h.linear with hl | hl <;> simp [hl]

theorem visBatches_congr {fs fs' ts ts' : List VGroup}
    (hf : fs.map Prod.snd = fs'.map Prod.snd) (ht : ts = ts') : visBatches fs ts = visBatches fs' ts' := by
  subst ht
  unfold visBatches
  apply List.ext_getElem?
  intro i
  have hi : (fs[i]?).map Prod.snd = (fs'[i]?).map Prod.snd := by
    rw [← List.getElem?_map, ← List.getElem?_map, hf]
  simp only [List.getElem?_map, List.getElem?_zipIdx, List.zip, List.getElem?_zipWith]
  cases h1 : fs[i]? <;> cases h2 : fs'[i]? <;> cases h3 : ts[i]? <;> simp_all

theorem copySame_sound {env : VEnv} {shape : DGroupClass → MGroupClass} {id : Nat} {w w' : VisState} {d : VDiscr}
    (hw : w.Sound env shape) (hb : d.Built env) (hs : d.Shaped shape) (h : w.copySame env id d false = .ok w') :
    w'.Sound env shape ∧ w'.conn.fromD = d ∧ w'.conn.toD.groups = w.conn.toD.groups ∧ w'.shrink = w.shrink ∧
      w'.equidistant = w.equidistant := by
  obtain ⟨hsame, v, fd, td, gs, surj, hv, hc, rfl⟩ := copySame_ok.1 h
  obtain ⟨h1, h2, h3, h4, h5, h6, h7⟩ := hw
  rw [hc] at h1 h2 h3 h4 h5 h6 h7 hsame hv
  simp only [VConn.fromD, VConn.toD] at h1 h2 h3 h4 h5 h6 hsame hv
  obtain ⟨hv1, hv2⟩ := make_ok hv
  have hm := mesh_eq_of_same hb h1 hs h2 hsame
  have hg : v.groups = td.groups := by
    have : buildGroups env td.factory d.mesh = buildGroups env td.factory td.mesh :=
      buildGroups_congr (by rw [hm, h4])
    rw [hv2, h3] at this
    exact Option.some.inj this
  refine ⟨⟨hb, hs, ?_, ?_, ?_, ?_, ?_⟩, rfl, ?_, rfl, rfl⟩
  · simp only [VConn.toD, VDiscr.Built]
    rw [hv1]
    exact hv2
  · simp only [VConn.toD, VConn.fromD]
    rw [hv1]
  · simp only [VConn.toD, hg]
    exact h5
  · simp only [VConn.toD, hg]
    exact h6
  · intro _ _ _ _ hh
    cases hh
    obtain ⟨e1, e2⟩ := h7 _ _ _ _ rfl
    have hm' := buildGroups_mesh hb
    have hm'' := buildGroups_mesh h1
    rw [hm, ← hm''] at hm'
    refine ⟨?_, e2⟩
    rw [e1]
    refine visBatches_congr ?_ hg.symm
    · have := congrArg (List.map Prod.snd) hm'
      simpa [List.map_map, Function.comp_def] using this.symm
  · simp only [VConn.toD, hc, hg]

theorem sameKeys_of_same : ∀ {l l' m : List VGroup}, l.length = l'.length → sameGroups l l' = .ok true →
    sameKeys l m = sameKeys l' m
  | [], [], _, _, _ => rfl
  | (g, n) :: l, (g', n') :: l', m, hl, h => by
    simp only [sameGroups] at h
    split at h
    · rename_i k k' hk hk'
      split at h
      · rename_i hc
        obtain ⟨rfl, rfl⟩ := hc
        cases m with
        | nil => simp [sameKeys]
        | cons x m =>
          obtain ⟨x, nx⟩ := x
          simp only [sameKeys, hk, hk']
          rw [sameKeys_of_same (m := m) (by simpa using hl) h]
      · cases h
    · cases h
  | [], _ :: _, _, hl, _ => by simp at hl
  | _ :: _, [], _, hl, _ => by simp at hl

theorem runQueries_sound {env : VEnv} {shape : DGroupClass → MGroupClass} {w w' : VisState} (h : w.Sound env shape)
    (qs : List Bool) (hr : w.runLife env (qs.map .query) = .ok w') :
    w'.Sound env shape ∧ w'.conn = w.conn ∧ w'.shrink = w.shrink ∧ w'.equidistant = w.equidistant := by
  unfold VisState.runLife at hr
  induction qs generalizing w with
  | nil => cases hr; exact ⟨h, rfl, rfl, rfl⟩
  | cons q qs ih =>
    rw [List.map_cons, List.foldlM_cons] at hr
    obtain ⟨h1, h2, h3, h4⟩ := query_sound h q
    obtain ⟨h5, h6, h7, h8⟩ := ih h1 hr
    exact ⟨h5, h6.trans h2, h7.trans h3, h8.trans h4⟩

/-- The discretization that a visualizer shows after some steps.
(Specification or proof vocabulary, no code.) -/
def lastDiscr (d : VDiscr) : List LifeOp → VDiscr
  | [] => d
  | .query _ :: ops => lastDiscr d ops
  | .copy _ d' :: ops => lastDiscr d' ops

/-! ## Properties -/

/-- What holds after any sequence of operations. (Specification or proof vocabulary, no code.) -/
theorem runLife_sound {env : VEnv} {shape : DGroupClass → MGroupClass} {id : Nat} {d : VDiscr}
    {order : Option Nat} {shrink : Option Rat} {force : Bool} {w w' : VisState} (hid : id ≠ d.id) (hb : d.Built env)
    (hs : d.Shaped shape) (h : makeVisualizer env id d order shrink force = .ok w) (ops : List LifeOp)
    (hops : ∀ i d', LifeOp.copy i d' ∈ ops → d'.Built env ∧ d'.Shaped shape) (hr : w.runLife env ops = .ok w') :
    w'.Sound env shape ∧ w'.conn.fromD = lastDiscr d ops ∧ w'.shrink = w.shrink ∧
      w'.equidistant = w.equidistant := by
  obtain ⟨hsound, h1, h2, h3⟩ := makeVisualizer_sound hid hb hs h
  clear h hid hb hs
  clear h2 h3
  unfold VisState.runLife at hr
  induction ops generalizing w d with
  | nil => cases hr; exact ⟨hsound, h1, rfl, rfl⟩
  | cons op ops ih =>
    rw [List.foldlM_cons] at hr
    cases op with
    | query q =>
      obtain ⟨g1, g2, g3, g4⟩ := query_sound hsound q
      obtain ⟨k1, k2, k3, k4⟩ := ih (d := d) (fun i d' hm => hops i d' (List.mem_cons_of_mem _ hm)) hr g1
        (by rw [g2, h1])
      exact ⟨k1, k2, k3.trans g3, k4.trans g4⟩
    | copy i d' =>
      simp only [VisState.stepLife] at hr
      cases hc : w.copySame env i d' false with
      | error e => rw [hc] at hr; cases hr
      | ok u =>
        rw [hc] at hr
        obtain ⟨hb', hs'⟩ := hops i d' (List.mem_cons_self ..)
        obtain ⟨g1, g2, _, g3, g4⟩ := copySame_sound hsound hb' hs' hc
        obtain ⟨k1, k2, k3, k4⟩ := ih (d := d') (fun i d' hm => hops i d' (List.mem_cons_of_mem _ hm)) hr g1 g2
        exact ⟨k1, k2, k3.trans g3, k4.trans g4⟩

/-- C93: whatever files were written and however often the visualizer was copied (with the checks), it has the
connectivity of the visualization discretization that it has now: asking for the linear connectivity always gives
that, asking for the high-order one gives it if `force_equidistant` was given, and a `RuntimeError` otherwise.  It
shows the discretization that was last given, with the shrink factor given at first. -/
theorem C93_connectivity {env : VEnv} {shape : DGroupClass → MGroupClass} {id : Nat} {d : VDiscr}
    {order : Option Nat} {shrink : Option Rat} {force : Bool} {w w' : VisState} (hid : id ≠ d.id) (hb : d.Built env)
    (hs : d.Shaped shape) (h : makeVisualizer env id d order shrink force = .ok w) (ops : List LifeOp)
    (hops : ∀ i d', LifeOp.copy i d' ∈ ops → d'.Built env ∧ d'.Shaped shape) (hr : w.runLife env ops = .ok w') :
    (w'.query false).1 = .ok (.linear, w'.conn.toD.groups) ∧
    (w'.query true).1 = (if force then .ok (.lagrange, w'.conn.toD.groups) else .error .runtime) ∧
    w'.conn.fromD = lastDiscr d ops ∧ w'.conn.toD.mesh = w'.conn.fromD.mesh ∧ w'.conn.toD.Built env ∧
    w'.shrink = shrink.getD 1 := by
  obtain ⟨hsound, h1, h2, h3⟩ := makeVisualizer_sound hid hb hs h
  obtain ⟨k1, k2, k3, k4⟩ := runLife_sound hid hb hs h ops hops hr
  refine ⟨?_, ?_, k2, k1.mesh, k1.toBuilt, k3.trans h2⟩
  · rw [query_result k1]
    rfl
  · rw [query_result k1, k4, h3]
    rfl

/-- C93: whatever was done before, the connection of a visualizer takes the values of each group from the same group of
the discretization, all its elements in order, at the nodes of the visualization group. -/
theorem C93_batches {env : VEnv} {shape : DGroupClass → MGroupClass} {id : Nat} {d : VDiscr}
    {order : Option Nat} {shrink : Option Rat} {force : Bool} {w w' : VisState} (hid : id ≠ d.id) (hb : d.Built env)
    (hs : d.Shaped shape) (h : makeVisualizer env id d order shrink force = .ok w) (ops : List LifeOp)
    (hops : ∀ i d', LifeOp.copy i d' ∈ ops → d'.Built env ∧ d'.Shaped shape) (hr : w.runLife env ops = .ok w') :
    ∀ fd td gs surj, w'.conn = .direct fd td gs surj → surj = true ∧
      gs.length = min fd.groups.length td.groups.length ∧
      ∀ (k : Nat) (f t : VGroup), fd.groups[k]? = some f → td.groups[k]? = some t →
        gs[k]? = some [⟨k, List.range f.2, t.1⟩] := by
  obtain ⟨k1, -, -, -⟩ := runLife_sound hid hb hs h ops hops hr
  intro fd td gs surj hc
  obtain ⟨rfl, rfl⟩ := k1.batches fd td gs surj hc
  refine ⟨rfl, by simp [visBatches], ?_⟩
  intro k f t hf ht
  have hz : (fd.groups.zip td.groups)[k]? = some (f, t) :=
    (List.getElem?_zip_eq_some (z := (f, t))).2 ⟨hf, ht⟩
  simp only [visBatches, List.getElem?_map, List.getElem?_zipIdx, hz, Option.map_some, Nat.zero_add]

/-- C93: a visualizer uses the nodes of the discretization itself only if its groups agree with those that would be made
for visualization in class, dimension, order and family of nodes. -/
theorem C93_identity {env : VEnv} {id o : Nat} {d d' : VDiscr} {shrink : Option Rat} {force : Bool} {w : VisState}
    (hid : id ≠ d.id) (hb : d.Built env) (h : makeVisualizer env id d (some o) shrink force = .ok w)
    (hw : w.conn = .identity d') :
    d' = d ∧ ∃ v, VDiscr.make env id d.mesh (if force then equidistantFactory o else edgeClusteredFactory o) d.real =
        .ok v ∧
      List.Forall₂ (fun g g' : VGroup => g.1.cls = g'.1.cls ∧ g.1.group.dim = g'.1.group.dim ∧
        g.1.order = g'.1.order ∧ (g.1.cls = .recursiveNodes → g.1.extra = g'.1.extra)) d.groups v.groups := by
  obtain ⟨v, same, c, hv, hk, hc, rfl⟩ := makeVisualizer_order.1 h
  cases same with
  | true =>
    rw [if_pos rfl, visConnection_self] at hc
    cases hc
    cases hw
    refine ⟨rfl, v, hv, sameKeys_true ?_ hk⟩
    have e1 := congrArg List.length (buildGroups_mesh (make_ok hv).2)
    have e2 := congrArg List.length (buildGroups_mesh hb)
    simp only [List.length_map] at e1 e2
    omega
  | false =>
    rw [if_neg (by simp), visConnection_new hv hid] at hc
    cases hc
    cases hw

/-- C93: the check of copies accepts only discretizations whose groups agree in class, dimension, order, number of
elements and family of nodes. -/
theorem C93_check {d d' : VDiscr} (h : sameConnectivity d d' = .ok true) :
    List.Forall₂ (fun g g' : VGroup => g.1.cls = g'.1.cls ∧ g.1.group.dim = g'.1.group.dim ∧
      g.1.order = g'.1.order ∧ g.2 = g'.2 ∧ (g.1.cls = .recursiveNodes → g.1.extra = g'.1.extra)) d.groups
      d'.groups := by
  unfold sameConnectivity at h
  split at h
  · cases h
  · rename_i hl
    exact sameGroups_true (by simpa using hl) h

/-- C93: a copy of a visualizer, made with the checks after any number of files were written, is like a new visualizer
for the new discretization with the same arguments: same connection, same shrink factor, same connectivity.  (If the
two discretizations have the same real type, see `C93_fresh_counterexample`.) -/
theorem C93_fresh_partial {env : VEnv} {shape : DGroupClass → MGroupClass} {id id' : Nat} {d d' : VDiscr}
    {order : Option Nat} {shrink : Option Rat} {force : Bool} {w w' u : VisState} (hid : id ≠ d.id)
    (hid' : id' ≠ d'.id) (hb : d.Built env) (hb' : d'.Built env) (hs : d.Shaped shape) (hs' : d'.Shaped shape)
    (hreal : d'.real = d.real) (h : makeVisualizer env id d order shrink force = .ok w) (qs : List Bool)
    (hq : w.runLife env (qs.map .query) = .ok w') (hc : w'.copySame env id' d' false = .ok u) :
    ∃ u0, makeVisualizer env id' d' order shrink force = .ok u0 ∧ u.conn = u0.conn ∧ u.shrink = u0.shrink ∧
      u.equidistant = u0.equidistant ∧ ∀ hi, (u.query hi).1 = (u0.query hi).1 := by
  obtain ⟨hsound, h1, h2, h3⟩ := makeVisualizer_sound hid hb hs h
  obtain ⟨hsound', e1, e2, e3⟩ := runQueries_sound hsound qs hq
  obtain ⟨us, u1, u2, u3, u4⟩ := copySame_sound hsound' hb' hs' hc
  obtain ⟨hsame, v, fd, td, gs, surj, hv, hcn, rfl⟩ := copySame_ok.1 hc
  rw [e1] at hcn hv hsame u2
  rw [h1] at hsame
  -- the first visualizer was made with an order, and not for the same groups
  have hmade : ∃ o v0, order = some o ∧ VDiscr.make env id d.mesh
      (if force then equidistantFactory o else edgeClusteredFactory o) d.real = .ok v0 ∧
      sameKeys d.groups v0.groups = .ok false ∧ w.conn = .direct d v0 (visBatches d.groups v0.groups) true := by
    cases order with
    | none =>
      unfold makeVisualizer at h
      split at h
      · rw [visConnection_self] at h
        cases h
        simp [VisState.new] at hcn
      · cases h
    | some o =>
      obtain ⟨v0, same, c, g1, g2, g3, rfl⟩ := makeVisualizer_order.1 h
      cases same with
      | true =>
        rw [if_pos rfl, visConnection_self] at g3
        cases g3
        simp [VisState.new] at hcn
      | false =>
        rw [if_neg (by simp), visConnection_new g1 hid] at g3
        cases g3
        exact ⟨o, v0, rfl, g1, g2, rfl⟩
  obtain ⟨o, v0, rfl, m1, m2, m3⟩ := hmade
  rw [m3] at hcn hv u2
  injection hcn with q1 q2 q3 q4
  subst q1 q2 q3 q4
  simp only [VConn.toD] at hv u2
  obtain ⟨p1, p2⟩ := make_ok m1
  have hvf : v0.factory = (if force then equidistantFactory o else edgeClusteredFactory o) := by rw [p1]
  have hvr : v0.real = d'.real := by rw [p1, hreal]
  rw [hvf, hvr] at hv
  have hlen : d'.groups.length = d.groups.length := by
    unfold sameConnectivity at hsame
    split at hsame
    · cases hsame
    · rename_i hl
      simpa using hl
  have hsg : sameGroups d'.groups d.groups = .ok true := by
    unfold sameConnectivity at hsame
    rwa [if_neg (by simpa using hlen)] at hsame
  have hk : sameKeys d'.groups v.groups = .ok false := by
    rw [sameKeys_of_same hlen hsg, u2]
    exact m2
  have hfresh := (makeVisualizer_order (shrink := shrink)).2 ⟨v, false, _, hv, hk,
    (if_neg (by simp) : (if false = true then d' else v) = v) ▸ visConnection_new hv hid', rfl⟩
  have hconn : VConn.direct d' v (visBatches d.groups v0.groups) true =
      .direct d' v (visBatches d'.groups v.groups) true := by
    rw [(us.batches _ _ _ _ rfl).1]
  refine ⟨_, hfresh, hconn, ?_, ?_, ?_⟩
  · simp only [VisState.new]
    rw [e2, h2]
  · simp only [VisState.new]
    rw [e3, h3]
  · intro hi
    obtain ⟨f1, f2, f3, f4⟩ := makeVisualizer_sound hid' hb' hs' hfresh
    rw [query_result us, query_result f1]
    simp only [VisState.new, VConn.toD, e3, h3]
    rfl

/-- C93: a copy (with the checks) is made exactly if the groups are the same and the visualizer has a visualization
discretization of its own, i.e. was not made for the discretization itself. -/
theorem C93_copy_defined {env : VEnv} {shape : DGroupClass → MGroupClass} {id id' : Nat} {d d' : VDiscr}
    {order : Option Nat} {shrink : Option Rat} {force : Bool} {w : VisState} (hid : id ≠ d.id)
    (hb : d.Built env) (hb' : d'.Built env) (hs : d.Shaped shape) (hs' : d'.Shaped shape)
    (h : makeVisualizer env id d order shrink force = .ok w) :
    (∃ u, w.copySame env id' d' false = .ok u) ↔
      sameConnectivity d' d = .ok true ∧ w.conn.toD.id ≠ d.id := by
  obtain ⟨hsound, h1, h2, h3⟩ := makeVisualizer_sound hid hb hs h
  constructor
  · rintro ⟨u, hu⟩
    obtain ⟨hsame, v, fd, td, gs, surj, hv, hcn, -⟩ := copySame_ok.1 hu
    rw [h1] at hsame
    refine ⟨hsame, ?_⟩
    cases order with
    | none =>
      unfold makeVisualizer at h
      split at h
      · rw [visConnection_self] at h
        cases h
        simp [VisState.new] at hcn
      · cases h
    | some o =>
      obtain ⟨v0, same, c, g1, g2, g3, rfl⟩ := makeVisualizer_order.1 h
      cases same with
      | true =>
        rw [if_pos rfl, visConnection_self] at g3
        cases g3
        simp [VisState.new] at hcn
      | false =>
        rw [if_neg (by simp), visConnection_new g1 hid] at g3
        cases g3
        simp only [VisState.new, VConn.toD]
        rw [(make_ok g1).1]
        exact hid
  · rintro ⟨hsame, hne⟩
    cases hcn : w.conn with
    | identity x =>
      rw [hcn] at h1 hne
      simp only [VConn.fromD, VConn.toD] at h1 hne
      rw [h1] at hne
      exact absurd rfl hne
    | direct fd td gs surj =>
      have hm := mesh_eq_of_same hb' hb hs' hs hsame
      have h4 := hsound.mesh
      have h5 := hsound.toBuilt
      rw [h1] at h4
      have hbuild : buildGroups env w.conn.toD.factory d'.mesh = some w.conn.toD.groups := by
        rw [← h5]
        exact buildGroups_congr (by rw [hm, h4])
      refine ⟨_, copySame_ok.2 ⟨by rw [h1]; exact hsame, ⟨id', d'.mesh, w.conn.toD.factory, w.conn.toD.groups,
        w.conn.toD.real⟩, fd, td, gs, surj, ?_, hcn, rfl⟩⟩
      unfold VDiscr.make
      rw [hbuild]

/-- C93: a visualizer made without further arguments cannot be copied, whatever the discretization. -/
theorem C93_default_counterexample (env : VEnv) (id id' : Nat) (d d' : VDiscr) (skip : Bool) :
    ∃ w, makeVisualizer env id d none none false = .ok w ∧ ∀ u, w.copySame env id' d' skip ≠ .ok u := by
  refine ⟨.new (.identity d) none false, ?_, ?_⟩
  · unfold makeVisualizer
    rw [if_pos (by simp), visConnection_self]
    rfl
  · intro u hu
    cases skip with
    | false =>
      obtain ⟨_, _, _, _, _, _, _, hcn, _⟩ := copySame_ok.1 hu
      simp [VisState.new] at hcn
    | true =>
      unfold VisState.copySame at hu
      simp only [VisState.new, bind, Except.bind] at hu
      cases hv : VDiscr.make env id' d'.mesh (VConn.identity d).toD.factory (VConn.identity d).toD.real with
      | error e => rw [hv] at hu; simp at hu
      | ok v => rw [hv] at hu; simp [throw, throwThe, MonadExceptOf.throw] at hu

/-- C93: `make_visualizer` needs the order as soon as one of the other arguments is given; with an order it succeeds
for all discretizations but those with given nodes (on meshes of simplices and hypercubes of dimension at most 3, or
with `recursivenodes`). -/
theorem C93_make {env : VEnv} {id : Nat} {d : VDiscr} {order : Option Nat} {shrink : Option Rat} {force : Bool}
    (hsub : ∀ c, env.sub c c = true) (hid : id ≠ d.id)
    (hm : ∀ p ∈ d.mesh.groups, (p.1.type = .simplex ∨ p.1.type = .tensor) ∧ (env.recnodes = true ∨ p.1.dim ≤ 3))
    (hg : ∀ g ∈ d.groups, g.1.cls ≠ .givenNodes) :
    (∃ w, makeVisualizer env id d order shrink force = .ok w) ↔
      order ≠ none ∨ (shrink = none ∧ force = false) := by
  cases order with
  | none =>
    unfold makeVisualizer
    by_cases hc : shrink = none ∧ force = false
    · rw [if_pos ⟨hc.1, hc.2, rfl⟩, visConnection_self]
      simp [hc, Except.map]
    · rw [if_neg (by rintro ⟨h1, h2, _⟩; exact hc ⟨h1, h2⟩)]
      simp [hc]
  | some o =>
    simp only [ne_eq, reduceCtorEq, not_false_eq_true, true_or, iff_true]
    have hF : (if force then equidistantFactory o else edgeClusteredFactory o) ∈ libraryFactories o := by
      unfold libraryFactories
      cases force <;> simp
    generalize hfac : (if force then equidistantFactory o else edgeClusteredFactory o) = F at hF
    have hbuild : ∃ gs, buildGroups env F d.mesh = some gs ∧ ∀ g ∈ gs, g.1.cls ≠ .givenNodes := by
      unfold buildGroups
      generalize d.mesh.groups = l at hm
      induction l with
      | nil => exact ⟨[], rfl, by simp⟩
      | cons p l ih =>
        obtain ⟨gs, h1, h2⟩ := ih fun q hq => hm q (List.mem_cons_of_mem _ hq)
        obtain ⟨ht, hd⟩ := hm p (List.mem_cons_self ..)
        obtain ⟨b, hb⟩ := (C40_library env.sub hsub env.recnodes o F hF p.1 hd).1.2 ht
        refine ⟨(b, p.2) :: gs, ?_, ?_⟩
        · rw [List.mapM_cons, hb, h1]
          rfl
        · rintro g hgm
          rcases List.mem_cons.1 hgm with rfl | hgm
          · simp only
            subst hfac
            intro hcls
            cases force <;>
              simp only [if_true, Bool.false_eq_true, if_false, equidistantFactory, edgeClusteredFactory,
                Factory.call, callMap, callEntry, callDefault, callRecursive, callHomog] at hb <;>
              (repeat' split at hb) <;> first | (cases hb; done) | (cases hb; cases hcls)
          · exact h2 g hgm
    obtain ⟨gs, h1, h2⟩ := hbuild
    obtain ⟨b, hb⟩ := sameKeys_defined hg h2
    have hv : VDiscr.make env id d.mesh F d.real = .ok ⟨id, d.mesh, F, gs, d.real⟩ := by
      unfold VDiscr.make
      rw [h1]
    have hvc : ∃ c, visConnection (if b then d else ⟨id, d.mesh, F, gs, d.real⟩) d = .ok c := by
      cases b with
      | true => exact ⟨_, by rw [if_pos rfl]; exact visConnection_self d⟩
      | false => exact ⟨_, by rw [if_neg (by simp)]; exact visConnection_new hv hid⟩
    obtain ⟨c, hc⟩ := hvc
    exact ⟨_, makeVisualizer_order.2 ⟨_, b, c, by rw [hfac]; exact hv, hb, hc, rfl⟩⟩

/-- C93: with given nodes (in the first group) and an order, `make_visualizer` raises `NotImplementedError`. -/
theorem C93_given_nodes {env : VEnv} {id o : Nat} {d : VDiscr} {g : VGroup} {gs : List VGroup} {shrink : Option Rat}
    {force : Bool} (hg : d.groups = g :: gs) (hb : d.Built env) (hc : g.1.cls = .givenNodes) :
    ∀ w, makeVisualizer env id d (some o) shrink force ≠ .ok w := by
  intro w h
  obtain ⟨v, same, c, h1, h2, -, -⟩ := makeVisualizer_order.1 h
  have hlen : v.groups.length = d.groups.length := by
    have e1 := congrArg List.length (buildGroups_mesh (make_ok h1).2)
    have e2 := congrArg List.length (buildGroups_mesh hb)
    simp only [List.length_map] at e1 e2
    omega
  rw [hg] at h2 hlen
  cases hv : v.groups with
  | nil => rw [hv] at hlen; simp at hlen
  | cons x xs =>
    rw [hv] at h2
    obtain ⟨g, n⟩ := g
    obtain ⟨x, nx⟩ := x
    simp only at hc
    simp only [sameKeys] at h2
    have : discrKey g = none := by
      unfold discrKey
      rw [hc]
    rw [this] at h2
    simp at h2

/-- C93: if the high-order connectivity may be had, all groups have equidistant nodes and the order that was
asked for. -/
theorem C93_high_order {env : VEnv} {id : Nat} {d : VDiscr} {order : Option Nat} {shrink : Option Rat} {force : Bool}
    {w : VisState} (hid : id ≠ d.id) (hb : d.Built env) (h : makeVisualizer env id d order shrink force = .ok w)
    {r : VtkKind × List VGroup} (hq : (w.query true).1 = .ok r) :
    r.1 = .lagrange ∧ ∃ o, order = some o ∧ ∀ g ∈ r.2, g.1.order = o ∧ g.1.cls.isEquidistant = true := by
  have hforce : force = true ∧ r = (.lagrange, w.conn.toD.groups) := by
    have hnew : w.lagrange = none ∧ w.equidistant = force := by
      cases order with
      | none =>
        unfold makeVisualizer at h
        split at h
        · rw [visConnection_self] at h
          cases h
          exact ⟨rfl, rfl⟩
        · cases h
      | some o =>
        obtain ⟨_, _, _, _, _, _, rfl⟩ := makeVisualizer_order.1 h
        exact ⟨rfl, rfl⟩
    unfold VisState.query at hq
    rw [if_pos rfl, hnew.1, hnew.2] at hq
    cases force with
    | false => simp at hq
    | true =>
      simp at hq
      exact ⟨rfl, hq.symm⟩
  obtain ⟨rfl, rfl⟩ := hforce
  refine ⟨rfl, ?_⟩
  cases order with
  | none => simp [makeVisualizer] at h
  | some o =>
    refine ⟨o, rfl, ?_⟩
    obtain ⟨v, same, c, h1, h2, h3, rfl⟩ := makeVisualizer_order.1 h
    rw [if_pos rfl] at h1
    obtain ⟨hv1, hv2⟩ := make_ok h1
    have hv : ∀ g ∈ v.groups, g.1.order = o ∧ g.1.cls.isEquidistant = true := by
      unfold buildGroups at hv2
      generalize v.groups = gs at hv2
      generalize d.mesh.groups = l at hv2
      induction l generalizing gs with
      | nil => cases hv2; simp
      | cons p l ih =>
        rw [List.mapM_cons] at hv2
        obtain ⟨a, ha, hv2⟩ := Option.bind_eq_some_iff.1 hv2
        obtain ⟨b, hb, hv2⟩ := Option.bind_eq_some_iff.1 hv2
        cases hv2
        obtain ⟨x, hx, rfl⟩ := Option.map_eq_some_iff.1 ha
        intro g hg
        rcases List.mem_cons.1 hg with rfl | hg
        · simp only [equidistantFactory, Factory.call, callMap, callEntry] at hx
          (repeat' split at hx) <;> first | (cases hx; done) | (cases hx; exact ⟨rfl, rfl⟩)
        · exact ih _ hb g hg
    cases same with
    | false =>
      rw [if_neg (by simp), visConnection_new h1 hid] at h3
      cases h3
      exact hv
    | true =>
      rw [if_pos rfl, visConnection_self] at h3
      cases h3
      have hlen : d.groups.length = v.groups.length := by
        have e1 := congrArg List.length (buildGroups_mesh hv2)
        have e2 := congrArg List.length (buildGroups_mesh hb)
        simp only [List.length_map] at e1 e2
        omega
      have hf := sameKeys_true hlen h2
      intro g hg
      obtain ⟨i, hi, hgi⟩ := List.getElem_of_mem hg
      have hi' : i < d.groups.length := hi
      have := List.forall₂_iff_get.1 hf |>.2 i hi' (by omega)
      simp only [List.get_eq_getElem] at this
      have hg' := hv _ (List.getElem_mem (by omega : i < v.groups.length))
      subst hgi
      simp only [VisState.new, VConn.toD]
      rw [this.1, this.2.2.1]
      exact hg'

theorem buildGroups_library {env : VEnv} {F : Factory} {o : Nat} {m : VMesh} (hsub : ∀ c, env.sub c c = true)
    (hF : F = edgeClusteredFactory o ∨ F = equidistantFactory o)
    (hm : ∀ p ∈ m.groups, (p.1.type = .simplex ∨ p.1.type = .tensor) ∧ (env.recnodes = true ∨ p.1.dim ≤ 3)) :
    ∃ gs, buildGroups env F m = some gs ∧ ∀ g ∈ gs, g.1.cls ≠ .givenNodes ∧ g.1.order = o := by
  have hF' : F ∈ libraryFactories o := by
    unfold libraryFactories
    rcases hF with rfl | rfl <;> simp
  unfold buildGroups
  generalize m.groups = l at hm
  induction l with
  | nil => exact ⟨[], rfl, by simp⟩
  | cons p l ih =>
    obtain ⟨gs, h1, h2⟩ := ih fun q hq => hm q (List.mem_cons_of_mem _ hq)
    obtain ⟨ht, hd⟩ := hm p (List.mem_cons_self ..)
    obtain ⟨hl1, hl2⟩ := C40_library env.sub hsub env.recnodes o F hF' p.1 hd
    obtain ⟨b, hb⟩ := hl1.2 ht
    refine ⟨(b, p.2) :: gs, ?_, ?_⟩
    · rw [List.mapM_cons, hb, h1]
      rfl
    · rintro g hgm
      rcases List.mem_cons.1 hgm with rfl | hgm
      · refine ⟨?_, (hl2 b hb).2.2⟩
        simp only
        intro hcls
        rcases hF with rfl | rfl <;>
          simp only [equidistantFactory, edgeClusteredFactory,
            Factory.call, callMap, callEntry, callDefault, callRecursive, callHomog] at hb <;>
          (repeat' split at hb) <;> first | (cases hb; done) | (cases hb; cases hcls)
      · exact h2 g hgm

/-- C93: `vtk_visualize_mesh` succeeds for all meshes of simplices and hypercubes with at least one group (of dimension
at most 3, or with `recursivenodes`); what is written has the groups of the mesh with their elements, the largest
order among them, and is the high-order connectivity, with equidistant nodes, exactly if that was asked for. -/
theorem C93_visualize_mesh {env : VEnv} {m : VMesh} {orders : List Nat} {o real : Nat} {highOrder : Bool}
    (hsub : ∀ c, env.sub c c = true) (ho : orders.max? = some o)
    (hm : ∀ p ∈ m.groups, (p.1.type = .simplex ∨ p.1.type = .tensor) ∧ (env.recnodes = true ∨ p.1.dim ≤ 3)) :
    ∃ r, vtkVisualizeMesh env m orders real highOrder = .ok r ∧ (r.1 = .lagrange ↔ highOrder = true) ∧
      r.2.map (fun g => (g.1.group, g.2)) = m.groups ∧
      ∀ g ∈ r.2, g.1.order = o ∧ (highOrder = true → g.1.cls.isEquidistant = true) := by
  obtain ⟨gs, h1, h2⟩ := buildGroups_library hsub (.inl rfl) hm (o := o)
  have hd : VDiscr.make env 0 m (edgeClusteredFactory o) real = .ok ⟨0, m, edgeClusteredFactory o, gs, real⟩ := by
    unfold VDiscr.make
    rw [h1]
  unfold vtkVisualizeMesh
  simp only [ho, hd]
  cases highOrder with
  | false =>
    refine ⟨(.linear, gs), ?_, by simp, buildGroups_mesh h1, fun g hg => ⟨(h2 g hg).2, by simp⟩⟩
    simp only [Bool.false_eq_true, if_false, bind, Except.bind, makeVisualizer, and_self, if_true, visConnection_self]
    rfl
  | true =>
    simp only [if_true, bind, Except.bind]
    obtain ⟨w, hw⟩ := (C93_make (env := env) (id := 1) (d := ⟨0, m, edgeClusteredFactory o, gs, real⟩)
      (order := some o) (shrink := none) (force := true) hsub (by simp) hm fun g hg => (h2 g hg).1).2 (.inl (by simp))
    rw [hw]
    obtain ⟨v, same, c, hv, hk, hc, hw'⟩ := makeVisualizer_order.1 hw
    have hq : (w.query true).1 = .ok (.lagrange, w.conn.toD.groups) := by
      subst hw'
      rfl
    obtain ⟨-, o', hoo, hall⟩ := C93_high_order (by simp) (show VDiscr.Built env ⟨0, m, edgeClusteredFactory o, gs, real⟩ from h1) hw hq
    cases hoo
    refine ⟨(.lagrange, w.conn.toD.groups), hq, by simp, ?_, fun g hg => ⟨(hall g hg).1, fun _ => (hall g hg).2⟩⟩
    subst hw'
    cases same with
    | false =>
      rw [if_neg (by simp), visConnection_new hv (by simp)] at hc
      cases hc
      exact buildGroups_mesh (make_ok hv).2
    | true =>
      rw [if_pos rfl, visConnection_self] at hc
      cases hc
      exact buildGroups_mesh h1

/-! ## Examples -/

/-- (Example, no code.) -/
def exLifeEnv : VEnv := ⟨fun a b => a = b, true⟩

/-- (Example, no code.) A discretization of a mesh of triangles and a mesh of quadrilaterals. -/
def exLife (id mesh n real : Nat) : VDiscr :=
  { id, mesh := ⟨mesh, [(⟨.simplex, 2⟩, n), (⟨.tensor, 2⟩, 3)]⟩, factory := interpQuadratureFactory 4
    groups := [(⟨.interpQuadratureSimplex, ⟨.simplex, 2⟩, 4, none⟩, n), (⟨.gaussLegendre, ⟨.tensor, 2⟩, 4, none⟩, 3)]
    real }

/-- (Example, no code.) -/
def exShape (c : DGroupClass) : MGroupClass := c.kind.getD .simplex

theorem exLife_built (id mesh n real : Nat) : (exLife id mesh n real).Built exLifeEnv := by
  simp [VDiscr.Built, exLife, buildGroups, interpQuadratureFactory, Factory.call, callMap, callEntry]

theorem exLife_shaped (id mesh n real : Nat) : (exLife id mesh n real).Shaped exShape := by
  intro g hg
  simp only [exLife, List.mem_cons, List.not_mem_nil, or_false] at hg
  rcases hg with rfl | rfl <;> rfl

/-- (Example, no code.) The visualization discretization of order 2 with equidistant nodes. -/
def exLifeVis (id mesh n real : Nat) : VDiscr :=
  { id, mesh := ⟨mesh, [(⟨.simplex, 2⟩, n), (⟨.tensor, 2⟩, 3)]⟩, factory := equidistantFactory 2
    groups := [(⟨.equidistantSimplex, ⟨.simplex, 2⟩, 2, none⟩, n), (⟨.equidistantTensor, ⟨.tensor, 2⟩, 2, none⟩, 3)]
    real }

theorem exLife_make (id id' mesh n real : Nat) (h : id' ≠ id) :
    makeVisualizer exLifeEnv id' (exLife id mesh n real) (some 2) (some (9 / 10)) true =
      .ok (.new (.direct (exLife id mesh n real) (exLifeVis id' mesh n real)
        (visBatches (exLife id mesh n real).groups (exLifeVis id' mesh n real).groups) true) (some (9 / 10)) true) := by
  have hv : VDiscr.make exLifeEnv id' (exLife id mesh n real).mesh (equidistantFactory 2) real =
      .ok (exLifeVis id' mesh n real) := by
    simp [VDiscr.make, exLife, exLifeVis, buildGroups, equidistantFactory, Factory.call, callMap, callEntry]
  refine makeVisualizer_order.2 ⟨exLifeVis id' mesh n real, false, _, ?_, ?_, visConnection_new hv h, rfl⟩
  · rw [if_pos rfl]
    exact hv
  · simp [exLife, exLifeVis, sameKeys, discrKey]

/-- A visualizer of order 2 with equidistant nodes, used to write a file of high order and copied for another
discretization with as many elements: the hypotheses of `C93_connectivity`, `C93_fresh_partial`,
`C93_copy_defined`. -/
example : ∃ w w' u, makeVisualizer exLifeEnv 1 (exLife 0 7 5 64) (some 2) (some (9 / 10)) true = .ok w ∧
    w.runLife exLifeEnv ([true].map .query) = .ok w' ∧ w'.copySame exLifeEnv 3 (exLife 2 8 5 64) false = .ok u ∧
    (u.query true).1 = .ok (.lagrange, (exLifeVis 3 8 5 64).groups) := by
  refine ⟨_, _, _, exLife_make 0 1 7 5 64 (by decide), rfl, copySame_ok.2 ⟨?_, exLifeVis 3 8 5 64, _, _, _, _, ?_, rfl,
    rfl⟩, rfl⟩
  · simp [VisState.query, VisState.new, VConn.fromD, exLife, sameConnectivity, sameGroups, discrKey]
  · simp [VisState.query, VisState.new, VConn.toD, VDiscr.make, exLife, exLifeVis, buildGroups, equidistantFactory,
      Factory.call, callMap, callEntry]

/-- `C93_visualize_mesh` on a mesh of 5 triangles of order 2 and 3 quadrilaterals of order 1. -/
example : vtkVisualizeMesh exLifeEnv ⟨7, [(⟨.simplex, 2⟩, 5), (⟨.tensor, 2⟩, 3)]⟩ [2, 1] 64 true =
    .ok (.lagrange, [(⟨.equidistantSimplex, ⟨.simplex, 2⟩, 2, none⟩, 5), (⟨.equidistantTensor, ⟨.tensor, 2⟩, 2, none⟩, 3)]) := by
  rfl

/-- `C93_high_order` on the example. -/
example : (exLifeVis 1 7 5 64).groups.all (fun g => g.1.cls.isEquidistant && g.1.order == 2) = true := by decide

/-- `C93_batches` on the example: the second group takes its 3 elements from the second group. -/
example : ∃ w gs, makeVisualizer exLifeEnv 1 (exLife 0 7 5 64) (some 2) (some (9 / 10)) true = .ok w ∧
    w.conn = .direct (exLife 0 7 5 64) (exLifeVis 1 7 5 64) gs true ∧
    gs[1]? = some [⟨1, [0, 1, 2], ⟨.equidistantTensor, ⟨.tensor, 2⟩, 2, none⟩⟩] := by
  refine ⟨_, _, exLife_make 0 1 7 5 64 (by decide), rfl, ?_⟩
  exact (C93_batches (by decide : 1 ≠ (exLife 0 7 5 64).id) (exLife_built 0 7 5 64) (exLife_shaped 0 7 5 64)
    (exLife_make 0 1 7 5 64 (by decide)) [] (by simp) rfl _ _ _ _ rfl).2.2 1 _ _ rfl rfl

/-- `C93_identity` on a discretization with the equidistant nodes of order 2 that the visualizer would use. -/
example : makeVisualizer exLifeEnv 5 (exLifeVis 1 7 5 64) (some 2) none true =
    .ok (.new (.identity (exLifeVis 1 7 5 64)) none true) := by
  rfl

/-- `C93_check` on two discretizations; recursive nodes of two families are told apart. -/
example : sameConnectivity (exLife 0 7 5 64) (exLife 2 8 5 32) = .ok true ∧
    sameGroups [(⟨.recursiveNodes, ⟨.simplex, 2⟩, 2, some 0⟩, 5)] [(⟨.recursiveNodes, ⟨.simplex, 2⟩, 2, some 1⟩, 5)] =
      .ok false := by
  exact ⟨rfl, rfl⟩

/-- C93: copied for a discretization with another real type, the visualizer keeps the real type of the first one, a
new visualizer has that of the second. -/
theorem C93_fresh_counterexample : ∃ w u u0,
    makeVisualizer exLifeEnv 1 (exLife 0 7 5 64) (some 2) (some (9 / 10)) true = .ok w ∧
    w.copySame exLifeEnv 3 (exLife 2 8 5 32) false = .ok u ∧
    makeVisualizer exLifeEnv 3 (exLife 2 8 5 32) (some 2) (some (9 / 10)) true = .ok u0 ∧
    u.conn.toD.real = 64 ∧ u0.conn.toD.real = 32 := by
  refine ⟨_, _, _, exLife_make 0 1 7 5 64 (by decide), copySame_ok.2 ⟨?_, exLifeVis 3 8 5 64, _, _, _, _, ?_, rfl,
    rfl⟩, exLife_make 2 3 8 5 32 (by decide), rfl, rfl⟩
  · simp [VisState.new, VConn.fromD, exLife, sameConnectivity, sameGroups, discrKey]
  · simp [VisState.new, VConn.toD, VDiscr.make, exLife, exLifeVis, buildGroups, equidistantFactory, Factory.call,
      callMap, callEntry]

/-- C93: without the checks (`skip_tests=True`) the connectivity may be that of another mesh: here one for 5 triangles
in place of 6. -/
theorem C93_skip_counterexample : ∃ w w' u,
    makeVisualizer exLifeEnv 1 (exLife 0 7 5 64) (some 2) (some (9 / 10)) true = .ok w ∧
    w.runLife exLifeEnv [.query false] = .ok w' ∧ w'.copySame exLifeEnv 3 (exLife 2 8 6 64) true = .ok u ∧
    (u.query false).1 = .ok (.linear, (exLifeVis 1 7 5 64).groups) ∧
    u.conn.toD.groups = (exLifeVis 3 8 6 64).groups ∧
    (exLifeVis 1 7 5 64).groups ≠ (exLifeVis 3 8 6 64).groups := by
  refine ⟨_, _, ⟨.direct (exLife 2 8 6 64) (exLifeVis 3 8 6 64)
    (visBatches (exLife 0 7 5 64).groups (exLifeVis 1 7 5 64).groups) true, 9 / 10, true,
    some (exLifeVis 1 7 5 64).groups, none⟩, exLife_make 0 1 7 5 64 (by decide), rfl, ?_, rfl, rfl, by decide⟩
  have hv : VDiscr.make exLifeEnv 3 (exLife 2 8 6 64).mesh (equidistantFactory 2) 64 =
      .ok (exLifeVis 3 8 6 64) := by
    simp [VDiscr.make, exLife, exLifeVis, buildGroups, equidistantFactory, Factory.call, callMap, callEntry]
  unfold VisState.copySame
  simp only [VisState.query, VisState.new, VConn.toD, bind, Except.bind, pure, Except.pure]
  simp only [Bool.true_eq_false, if_false, Bool.false_eq_true]
  have h1 : (exLifeVis 1 7 5 64).factory = equidistantFactory 2 := rfl
  have h2 : (exLifeVis 1 7 5 64).real = 64 := rfl
  rw [h1, h2, hv]
  rfl

/-- Given nodes: `C93_given_nodes` applies. -/
example : (⟨0, ⟨7, [(⟨.simplex, 2⟩, 5)]⟩, .given 2 9, [(⟨.givenNodes, ⟨.simplex, 2⟩, 2, some 9⟩, 5)], 64⟩ :
    VDiscr).Built exLifeEnv := by
  simp [VDiscr.Built, buildGroups, Factory.call, callGiven, exLifeEnv]

end Meshmode
