import Verif.Connection.SameMesh
import Verif.Dof.Container
import Verif.Partition.Lemmas
import Mathlib.Analysis.Real.Sqrt
import Mathlib.Algebra.Order.BigOperators.Group.List

/-!
# Nodes of discretizations (C125)

`Discretization.nodes` (meshmode/discretization/__init__.py:580-638) with its cache and with the test that avoids
resampling.  Arithmetic is exact.
-/
namespace Meshmode

open Finset

/-! ## Model -/

/-- A group of a discretization with what `nodes` needs of it and of its mesh element group: whether it is a
`NodalElementGroupBase`, the unit nodes of both, the functions of `mp.basis_for_space(meg.space, meg.shape)`, and
`mesh_el_group.nodes` by axis and element.
Code: meshmode/discretization/__init__.py:602-631, meshmode/discretization/poly_element.py:124-134. -/
structure NodeGroup where
  nodal : Bool
  dim : Nat
  unit : List (Fin dim → ℝ)
  megUnit : List (Fin dim → ℝ)
  basis : List ((Fin dim → ℝ) → ℝ)
  nodes : List (List (List ℝ))

/-- `np.linalg.norm(grp_unit_nodes - meg_unit_nodes)` of the arrays as one row,
meshmode/discretization/__init__.py:611-619. -/
noncomputable def unitDistance {d : Nat} (u v : List (Fin d → ℝ)) : ℝ :=
  √(List.zipWith (fun p q => ∑ b, (p b - q b) ^ 2) u v).sum

/-- The test for the same unit nodes, meshmode/discretization/__init__.py:616-618. -/
def SameUnit (tol : ℝ) (g : NodeGroup) : Prop :=
  g.dim * g.unit.length = g.dim * g.megUnit.length ∧ unitDistance g.unit g.megUnit < tol

/-- The resampling matrix. `resample basis new old` is `mp.resampling_matrix` with exact arithmetic, `none` if it
raises. Code: meshmode/discretization/poly_element.py:124-134. -/
abbrev Resampler := ∀ d : Nat, List ((Fin d → ℝ) → ℝ) → List (Fin d → ℝ) → List (Fin d → ℝ) → Option (Mat ℝ)

open Classical in
/-- `resample_mesh_nodes`, meshmode/discretization/__init__.py:602-631; `none` for an `IndexError` or if the matrix
cannot be computed. -/
noncomputable def resampleMeshNodes (resample : Resampler) (tol : ℝ) (g : NodeGroup) (iaxis : Nat) :
    Option (List (List ℝ)) :=
  match g.nodes[iaxis]? with
  | none => none
  | some nodes =>
    if SameUnit tol g then some nodes
    else (resample g.dim g.basis g.unit g.megUnit).map fun M => nodes.map (matVec M)

/-- Exceptions. Code: meshmode/discretization/__init__.py:598-600, 602-631. -/
inductive NodesErr where
  /-- `ElementGroupTypeError` -/
  | groupType
  /-- from resampling -/
  | resampling
  deriving DecidableEq, Repr

/-- The node arrays, one frozen `DOFArray` for each axis, without the cache,
meshmode/discretization/__init__.py:596-635. -/
noncomputable def computeNodes (resample : Resampler) (tol : ℝ) (ambientDim : Nat) (groups : List NodeGroup) :
    Except NodesErr (List (DofObj (List (List ℝ)))) :=
  if !(groups.all fun g => g.nodal) then .error .groupType
  else
    match (List.range ambientDim).mapM fun iaxis => groups.mapM fun g => resampleMeshNodes resample tol g iaxis with
    | none => .error .resampling
    | some r => .ok (r.map fun data => ⟨none, data⟩)

/-- A discretization's `_cached_nodes`, as object and contents, and the number of the next object to be made.
Code: meshmode/discretization/__init__.py:432, 589-595, 636-637. -/
structure NodeCache (V : Type) where
  cached : Option (Nat × V)
  next : Nat

/-- What a call gives: object and contents, or an exception; and whether it warned.
Code: meshmode/discretization/__init__.py:589-638. -/
structure NodesCall (V : Type) where
  result : Except NodesErr (Nat × V)
  warned : Bool

/-- `Discretization.nodes`, meshmode/discretization/__init__.py:580-638, `compute` being its computation. -/
def nodesCall {V : Type} (compute : Except NodesErr V) (flag : Bool) (s : NodeCache V) : NodesCall V × NodeCache V :=
  match s.cached with
  | some ov => (⟨.ok ov, !flag⟩, s)
  | none =>
    match compute with
    | .error e => (⟨.error e, false⟩, s)
    | .ok v => (⟨.ok (s.next, v), false⟩, ⟨if flag then some (s.next, v) else none, s.next + 1⟩)

/-- Calls one after the other, on a discretization as `__init__` (or `copy`) leaves it.
Code: meshmode/discretization/__init__.py:432, 580-638. -/
def nodesCalls {V : Type} (compute : Except NodesErr V) : List Bool → NodeCache V → List (NodesCall V)
  | [], _ => []
  | f :: fs, s => (nodesCall compute f s).1 :: nodesCalls compute fs (nodesCall compute f s).2

/-! ## Specification -/

/-- The contents of what was returned. (Specification or proof vocabulary, no code.) -/
def NodesCall.value {V : Type} (c : NodesCall V) : Except NodesErr V := c.result.map Prod.snd

/-- The group's arrays have their shapes. (Specification or proof vocabulary, no code.) -/
structure NodeGroup.OK (ambientDim nel : Nat) (g : NodeGroup) : Prop where
  axes : g.nodes.length = ambientDim
  els : ∀ rows ∈ g.nodes, rows.length = nel ∧ ∀ row ∈ rows, row.length = g.megUnit.length
  basis : g.basis.length = g.megUnit.length
  /-- elements are not points, or there is one node on each -/
  dim : 0 < g.dim ∨ g.unit.length = g.megUnit.length

/-! ## The cache -/

section
variable {V : Type}

theorem nodesCalls_getElem? (compute : Except NodesErr V) (fs : List Bool) :
    ∀ (s : NodeCache V), (nodesCalls compute fs s).length = fs.length := by
  induction fs with
  | nil => intro s; rfl
  | cons f fs ih => intro s; simp [nodesCalls, ih]

theorem calls_cached (compute : Except NodesErr V) (fs : List Bool) :
    ∀ {s : NodeCache V} {ov : Nat × V}, s.cached = some ov →
      nodesCalls compute fs s = fs.map fun f => ⟨.ok ov, !f⟩ := by
  induction fs with
  | nil => intro s ov _; rfl
  | cons f fs ih =>
    intro s ov h
    have hc : nodesCall compute f s = (⟨.ok ov, !f⟩, s) := by simp [nodesCall, h]
    simp only [nodesCalls, hc, List.map_cons, ih h]

/-- The calls before the first with `cached=True` make a new object each; those from it on give its object. -/
theorem calls_ok (v : V) (fs : List Bool) : ∀ (k i : Nat) f, fs[i]? = some f →
    (nodesCalls (.ok v) fs ⟨none, k⟩)[i]? = some
      ⟨.ok (k + min i (fs.takeWhile fun f => !f).length, v), !f && decide ((fs.takeWhile fun f => !f).length < i)⟩ := by
  induction fs with
  | nil => intro k i f h; simp at h
  | cons a fs ih =>
    intro k i f h
    cases a with
    | true =>
      have hc : nodesCall (.ok v) true (⟨none, k⟩ : NodeCache V) = (⟨.ok (k, v), false⟩, ⟨some (k, v), k + 1⟩) := rfl
      simp only [nodesCalls, hc, List.takeWhile_cons, Bool.not_true, Bool.false_eq_true, if_false, List.length_nil]
      cases i with
      | zero => simp
      | succ i =>
        rw [calls_cached (ov := (k, v)) _ _ rfl]
        simp only [List.getElem?_cons_succ] at h
        simp [h]
    | false =>
      have hc : nodesCall (.ok v) false (⟨none, k⟩ : NodeCache V) = (⟨.ok (k, v), false⟩, ⟨none, k + 1⟩) := rfl
      simp only [nodesCalls, hc, List.takeWhile_cons, Bool.not_false, if_true, List.length_cons]
      cases i with
      | zero => simp
      | succ i =>
        simp only [List.getElem?_cons_succ] at h ⊢
        rw [ih (k + 1) i f h]
        congr 2
        · congr 2
          omega
        · congr 1
          simp

theorem calls_error (e : NodesErr) (fs : List Bool) : ∀ (k : Nat),
    nodesCalls (.error e) fs (⟨none, k⟩ : NodeCache V) = fs.map fun _ => ⟨.error e, false⟩ := by
  induction fs with
  | nil => intro k; rfl
  | cons a fs ih =>
    intro k
    have hc : nodesCall (.error e) a (⟨none, k⟩ : NodeCache V) = (⟨.error e, false⟩, ⟨none, k⟩) := rfl
    simp only [nodesCalls, hc, ih, List.map_cons]

theorem first_true (fs : List Bool) : ∀ i < fs.length,
    ((fs.takeWhile fun f => !f).length ≤ i ↔ ∃ l ≤ i, fs[l]? = some true) := by
  induction fs with
  | nil => intro i hi; simp at hi
  | cons a fs ih =>
    intro i hi
    cases a with
    | true =>
      refine ⟨fun _ => ⟨0, by omega, rfl⟩, fun _ => by simp⟩
    | false =>
      simp only [List.takeWhile_cons, Bool.not_false, if_true, List.length_cons]
      cases i with
      | zero =>
        constructor
        · intro h; omega
        · rintro ⟨l, hl, h⟩
          obtain rfl : l = 0 := by omega
          simp at h
      | succ i =>
        rw [Nat.add_le_add_iff_right, ih i (by simpa using hi)]
        constructor
        · rintro ⟨l, hl, h⟩
          exact ⟨l + 1, by omega, by simpa using h⟩
        · rintro ⟨l, hl, h⟩
          cases l with
          | zero => simp at h
          | succ l => exact ⟨l, by omega, by simpa using h⟩

/-- C125: whatever calls came before and with which flags, a call gives the contents, or raises the exception, that
the computation does. -/
theorem C125_history (compute : Except NodesErr V) (fs : List Bool) (k : Nat) :
    ∀ c ∈ nodesCalls compute fs ⟨none, k⟩, c.value = compute := by
  intro c hc
  cases compute with
  | error e =>
    rw [calls_error] at hc
    obtain ⟨_, _, rfl⟩ := List.mem_map.1 hc
    rfl
  | ok v =>
    obtain ⟨i, hi⟩ := List.getElem?_of_mem hc
    have hlt : i < fs.length := by
      rw [← nodesCalls_getElem? (.ok v) fs ⟨none, k⟩]
      exact (List.getElem?_eq_some_iff.1 hi).1
    rw [calls_ok v fs k i _ (List.getElem?_eq_getElem hlt)] at hi
    obtain rfl := Option.some.inj hi
    rfl

/-- C125: two calls give the same object exactly if there is a call with `cached=True` not after the earlier one. -/
theorem C125_identity {v : V} {fs : List Bool} {k i j : Nat} (hij : i < j) {c c' : NodesCall V}
    (hc : (nodesCalls (.ok v) fs ⟨none, k⟩)[i]? = some c) (hc' : (nodesCalls (.ok v) fs ⟨none, k⟩)[j]? = some c') :
    c.result = c'.result ↔ ∃ l ≤ i, fs[l]? = some true := by
  have hj : j < fs.length := by
    rw [← nodesCalls_getElem? (.ok v) fs ⟨none, k⟩]
    exact (List.getElem?_eq_some_iff.1 hc').1
  rw [calls_ok v fs k i _ (List.getElem?_eq_getElem (hij.trans hj))] at hc
  rw [calls_ok v fs k j _ (List.getElem?_eq_getElem hj)] at hc'
  obtain rfl := Option.some.inj hc
  obtain rfl := Option.some.inj hc'
  have hw := first_true fs i (hij.trans hj)
  simp only [Except.ok.injEq, Prod.mk.injEq, and_true]
  constructor
  · intro h
    exact hw.1 (by omega)
  · intro h
    have := hw.2 h
    omega

/-- C125: a call warns exactly if it has `cached=False` and an earlier call had `cached=True`. -/
theorem C125_warning {v : V} {fs : List Bool} {k i : Nat} {f : Bool} (hf : fs[i]? = some f) {c : NodesCall V}
    (hc : (nodesCalls (.ok v) fs ⟨none, k⟩)[i]? = some c) :
    c.warned = true ↔ f = false ∧ ∃ l < i, fs[l]? = some true := by
  rw [calls_ok v fs k i f hf] at hc
  obtain rfl := Option.some.inj hc
  have hi := (List.getElem?_eq_some_iff.1 hf).1
  have hw := first_true fs
  simp only [Bool.and_eq_true, Bool.not_eq_true', decide_eq_true_eq]
  refine and_congr_right fun _ => ?_
  cases i with
  | zero => simp
  | succ i =>
    rw [Nat.lt_succ_iff, hw i (by omega)]
    simp

end

/-! ## The computation -/

section
variable {resample : Resampler} {tol : ℝ} {ambientDim : Nat} {groups : List NodeGroup}

theorem computeNodes_ok {r : List (DofObj (List (List ℝ)))} (h : computeNodes resample tol ambientDim groups = .ok r) :
    (∀ g ∈ groups, g.nodal = true) ∧ r.length = ambientDim ∧ ∀ (a : Nat) o, r[a]? = some o →
      o.actx = none ∧ o.data.length = groups.length ∧ ∀ (gi : Nat) g, groups[gi]? = some g →
        ∃ rows, o.data[gi]? = some rows ∧ resampleMeshNodes resample tol g a = some rows := by
  unfold computeNodes at h
  split at h
  · exact absurd h (by simp)
  · rename_i hn
    split at h
    · exact absurd h (by simp)
    · rename_i r' hr
      simp only [Except.ok.injEq] at h
      subst h
      obtain ⟨h1, h2⟩ := mapM_getElem?_some hr
      refine ⟨by simpa using hn, by simpa using h1, ?_⟩
      intro a o ho
      rw [List.getElem?_map] at ho
      obtain ⟨data, hd, rfl⟩ := Option.map_eq_some_iff.1 ho
      have ha : a < ambientDim := by
        have := (List.getElem?_eq_some_iff.1 hd).1
        rw [h1, List.length_range] at this
        exact this
      obtain ⟨data', hd', hm⟩ := h2 a a (List.getElem?_range ha)
      rw [hd] at hd'
      obtain rfl := Option.some.inj hd'
      obtain ⟨h3, h4⟩ := mapM_getElem?_some hm
      exact ⟨rfl, h3, h4⟩

/-- C125: `nodes` raises `ElementGroupTypeError` exactly if some group is not nodal, and gives arrays if all are, the
mesh's arrays have the right number of axes, and the resampling matrices exist. -/
theorem C125_defined (resample : Resampler) (tol : ℝ) (ambientDim : Nat) (groups : List NodeGroup) :
    (computeNodes resample tol ambientDim groups = .error .groupType ↔ ∃ g ∈ groups, g.nodal = false) ∧
    ((∀ g ∈ groups, g.nodal = true) → (∀ g ∈ groups, g.nodes.length = ambientDim) →
      (∀ g ∈ groups, SameUnit tol g ∨ ∃ M, resample g.dim g.basis g.unit g.megUnit = some M) →
      ∃ r, computeNodes resample tol ambientDim groups = .ok r) := by
  constructor
  · unfold computeNodes
    constructor
    · intro h
      split at h
      · rename_i hn
        simpa using hn
      · split at h <;> simp at h
    · intro h
      rw [if_pos (by simpa using h)]
  · intro h1 h2 h3
    unfold computeNodes
    rw [if_neg (by simpa using h1)]
    obtain ⟨r, hr⟩ : ∃ r, ((List.range ambientDim).mapM fun iaxis =>
        groups.mapM fun g => resampleMeshNodes resample tol g iaxis) = some r := by
      refine mapM_isSome_of fun a ha => mapM_isSome_of fun g hg => ?_
      have ha' : a < g.nodes.length := by rw [h2 g hg]; exact List.mem_range.1 ha
      unfold resampleMeshNodes
      rw [List.getElem?_eq_getElem ha']
      dsimp only
      rcases h3 g hg with hs | ⟨M, hM⟩
      · exact ⟨_, by rw [if_pos hs]⟩
      · by_cases hs : SameUnit tol g
        · exact ⟨_, by rw [if_pos hs]⟩
        · exact ⟨_, by rw [if_neg hs, hM, Option.map_some]⟩
    rw [hr]
    exact ⟨_, rfl⟩

theorem sameUnit_length {g : NodeGroup} {nel : Nat} (hok : g.OK ambientDim nel) (h : SameUnit tol g) :
    g.unit.length = g.megUnit.length := by
  rcases hok.dim with hd | hd
  · exact Nat.eq_of_mul_eq_mul_left hd h.1
  · exact hd

/-- C125: the arrays fit the discretization: one frozen array for each axis, with the shapes that
`check_dofarray_against_discr` wants. -/
theorem C125_shapes (hr : ∀ d, ResampleSound (resample d)) {nel : Nat → Nat}
    (hok : ∀ (gi : Nat) g, groups[gi]? = some g → g.OK ambientDim (nel gi)) {r : List (DofObj (List (List ℝ)))}
    (h : computeNodes resample tol ambientDim groups = .ok r) :
    r.length = ambientDim ∧ ∀ o ∈ r, o.actx = none ∧ o.data.length = groups.length ∧
      ∀ (gi : Nat) g, groups[gi]? = some g → ∃ rows, o.data[gi]? = some rows ∧ rows.length = nel gi ∧
        ∀ row ∈ rows, row.length = g.unit.length := by
  obtain ⟨_, h1, h2⟩ := computeNodes_ok h
  refine ⟨h1, fun o ho => ?_⟩
  obtain ⟨a, ha⟩ := List.getElem?_of_mem ho
  obtain ⟨h3, h4, h5⟩ := h2 a o ha
  refine ⟨h3, h4, fun gi g hg => ?_⟩
  obtain ⟨rows, h6, h7⟩ := h5 gi g hg
  refine ⟨rows, h6, ?_⟩
  have hok' := hok gi g hg
  unfold resampleMeshNodes at h7
  cases hn : g.nodes[a]? with
  | none => rw [hn] at h7; simp at h7
  | some nodes =>
    rw [hn] at h7
    obtain ⟨e1, e2⟩ := hok'.els nodes (List.mem_of_getElem? hn)
    simp only at h7
    split at h7
    · rename_i hs
      obtain rfl := Option.some.inj h7
      exact ⟨e1, fun row hrow => by rw [e2 row hrow, sameUnit_length hok' hs]⟩
    · obtain ⟨M, hM, rfl⟩ := Option.map_eq_some_iff.1 h7
      refine ⟨by simpa using e1, fun row hrow => ?_⟩
      obtain ⟨x, _, rfl⟩ := List.mem_map.1 hrow
      rw [matVec, List.length_map]
      exact (hr _ _ _ _ _ hok'.basis hM).1

/-- C125: with the unit nodes of the mesh, the nodes are the mesh's nodes, without any resampling. -/
theorem C125_mesh_nodes (htol : 0 < tol) {r : List (DofObj (List (List ℝ)))}
    (h : computeNodes resample tol ambientDim groups = .ok r) {gi : Nat} {g : NodeGroup} (hg : groups[gi]? = some g)
    (hu : g.unit = g.megUnit) {a : Nat} {o : DofObj (List (List ℝ))} (ho : r[a]? = some o) :
    o.data[gi]? = g.nodes[a]? := by
  obtain ⟨_, _, h2⟩ := computeNodes_ok h
  obtain ⟨_, _, h5⟩ := h2 a o ho
  obtain ⟨rows, h6, h7⟩ := h5 gi g hg
  have hs : SameUnit tol g := by
    refine ⟨by rw [hu], ?_⟩
    unfold unitDistance
    rw [hu]
    have : ∀ l : List (Fin g.dim → ℝ), (List.zipWith (fun p q => ∑ b, (p b - q b) ^ 2) l l).sum = 0 := by
      intro l
      induction l with
      | nil => rfl
      | cons p l ih => simp
    rw [this]
    simpa using htol
  unfold resampleMeshNodes at h7
  rw [h6]
  cases hn : g.nodes[a]? with
  | none => rw [hn] at h7; simp at h7
  | some nodes =>
    rw [hn] at h7
    simp only [if_pos hs] at h7
    exact h7.symm

theorem unit_close {d : Nat} {u v : List (Fin d → ℝ)} {i : Nat} {p q : Fin d → ℝ} (hp : u[i]? = some p)
    (hq : v[i]? = some q) : √(∑ b, (p b - q b) ^ 2) ≤ unitDistance u v := by
  refine Real.sqrt_le_sqrt ?_
  refine List.single_le_sum ?_ _ ?_
  · intro x hx
    rw [← List.map_uncurry_zip_eq_zipWith] at hx
    obtain ⟨pq, _, rfl⟩ := List.mem_map.1 hx
    exact Finset.sum_nonneg fun b _ => sq_nonneg _
  · refine List.mem_of_getElem? (i := i) ?_
    rw [List.getElem?_zipWith, hp, hq]

/-- C125: where the nodes are.  The coordinate `a` of the element `e` is the function in the span of the mesh's basis
that has the values of the mesh's nodes at the mesh's unit nodes.  The array has its values at the group's unit nodes:
exactly if the unit nodes differ from those of the mesh by at least the tolerance (or not at all), and up to the
tolerance times a Lipschitz constant otherwise. -/
theorem C125_accuracy (hr : ∀ d, ResampleSound (resample d)) {r : List (DofObj (List (List ℝ)))}
    (h : computeNodes resample tol ambientDim groups = .ok r) {gi nel : Nat} {g : NodeGroup} (hg : groups[gi]? = some g)
    (hok : g.OK ambientDim nel) {a e i : Nat} {o : DofObj (List (List ℝ))} (ho : r[a]? = some o) {c : List ℝ}
    (hc : c.length = g.basis.length)
    (hx : (g.nodes[a]?.bind fun rows => rows[e]?) = some (g.megUnit.map (evalAt g.basis c)))
    {p : Fin g.dim → ℝ} (hp : g.unit[i]? = some p) :
    ∃ y, ((o.data[gi]?.bind fun rows => rows[e]?).bind fun row => row[i]?) = some y ∧
      (¬ SameUnit tol g → y = evalAt g.basis c p) ∧
      (SameUnit tol g → ∃ q, g.megUnit[i]? = some q ∧ y = evalAt g.basis c q) ∧
      ∀ L : ℝ, 0 ≤ L →
        (∀ x x' : Fin g.dim → ℝ, |evalAt g.basis c x - evalAt g.basis c x'| ≤ L * √(∑ b, (x b - x' b) ^ 2)) →
        |y - evalAt g.basis c p| ≤ L * max tol 0 := by
  obtain ⟨_, _, h2⟩ := computeNodes_ok h
  obtain ⟨_, _, h5⟩ := h2 a o ho
  obtain ⟨rows, h6, h7⟩ := h5 gi g hg
  obtain ⟨nodes, hn, hrow⟩ := Option.bind_eq_some_iff.1 hx
  unfold resampleMeshNodes at h7
  rw [hn] at h7
  simp only at h7
  rw [h6, Option.bind_some]
  by_cases hs : SameUnit tol g
  · rw [if_pos hs] at h7
    obtain rfl := Option.some.inj h7
    have hi : i < g.megUnit.length := by
      rw [← sameUnit_length hok hs]
      exact (List.getElem?_eq_some_iff.1 hp).1
    have hq := List.getElem?_eq_getElem hi
    refine ⟨evalAt g.basis c (g.megUnit[i]), ?_, fun hns => absurd hs hns, fun _ => ⟨_, hq, rfl⟩, ?_⟩
    · rw [hrow, Option.bind_some, List.getElem?_map, hq, Option.map_some]
    · intro L hL hlip
      rw [abs_sub_comm]
      refine (hlip p _).trans (mul_le_mul_of_nonneg_left ?_ hL)
      exact ((unit_close hp hq).trans hs.2.le).trans (le_max_left _ _)
  · rw [if_neg hs] at h7
    obtain ⟨M, hM, rfl⟩ := Option.map_eq_some_iff.1 h7
    obtain ⟨_, _, e3, e4⟩ := hr _ _ _ _ _ hok.basis hM
    obtain ⟨c', hc', h8, h9⟩ := e3 (g.megUnit.map (evalAt g.basis c)) (by simp)
    obtain rfl := e4 c' c hc' hc h8
    refine ⟨evalAt g.basis c' p, ?_, fun _ => rfl, fun h => absurd h hs, fun L hL _ => ?_⟩
    · rw [List.getElem?_map, hrow, Option.map_some, Option.bind_some, h9, List.getElem?_map, hp, Option.map_some]
    · rw [sub_self, abs_zero]
      exact mul_nonneg hL (le_max_right _ _)

end

/-! ## Cases -/

open Classical in
/-- Resampling that knows bases of Lagrange polynomials only. (Example, no code.) -/
noncomputable def exLagrange : Resampler := fun _ basis new old =>
  if vdmMatrix basis old = (List.range old.length).map fun i =>
      (List.range old.length).map fun j => if i = j then 1 else 0 then some (vdmMatrix basis new)
  else none

theorem exLagrange_sound (d : Nat) : ResampleSound (exLagrange d) := by
  intro basis new old M hlen h
  unfold exLagrange at h
  split at h
  · rename_i hid
    simp only [Option.some.injEq] at h
    subst h
    have hval : ∀ v : List ℝ, v.length = old.length → old.map (evalAt basis v) = v := by
      intro v hv
      rw [← matVec_vandermonde, hid]
      apply List.ext_getElem
      · simp [matVec, hv]
      · intro i h1 h2
        have hvr : v = (List.range old.length).map fun j => v.getD j 0 := by
          apply List.ext_getElem
          · simp [hv]
          · intro k h3 h4
            simp [h3]
        simp only [matVec, List.map_map, List.getElem_map, List.getElem_range, Function.comp]
        conv_lhs => rw [hvr]
        rw [rowDot_eq_sum _ _ (by simp), Finset.sum_eq_single i]
        · simp [← hv, h2]
        · intro j hj hne
          simp at hj
          simp [hj, Ne.symm hne]
        · intro hn
          simp at hn
          omega
    refine ⟨by simp [vdmMatrix], ?_, ?_, ?_⟩
    · intro row hrow
      obtain ⟨x, _, rfl⟩ := List.mem_map.1 hrow
      simp [hlen]
    · intro v hv
      exact ⟨v, by omega, hval v hv, matVec_vandermonde _ _ _⟩
    · intro c c' hc hc' he
      rw [hval c (by omega), hval c' (by omega)] at he
      exact he
  · simp at h

/-- Two segments in the plane with linear functions, and their midpoints. (Example, no code.) -/
noncomputable def exNodeGroup : NodeGroup :=
  ⟨true, 1, [![0]], [![-1], ![1]], [fun x => (1 - x 0) / 2, fun x => (1 + x 0) / 2],
    [[[0, 2], [2, 2]], [[0, 0], [0, 4]]]⟩

/-- The same segments and their ends. (Example, no code.) -/
noncomputable def exNodeEnds : NodeGroup := { exNodeGroup with unit := [![-1], ![1]] }

theorem exNodeGroup_ok : exNodeGroup.OK 2 2 ∧ exNodeEnds.OK 2 2 := by
  refine ⟨⟨rfl, ?_, rfl, .inl (by decide)⟩, ⟨rfl, ?_, rfl, .inl (by decide)⟩⟩ <;>
  · intro rows hr
    simp only [exNodeEnds, exNodeGroup, List.mem_cons, List.not_mem_nil, or_false] at hr
    rcases hr with rfl | rfl <;> simp [exNodeEnds, exNodeGroup]

theorem exNodeGroup_matrix :
    exLagrange 1 exNodeGroup.basis exNodeGroup.unit exNodeGroup.megUnit = some [[1 / 2, 1 / 2]] := by
  unfold exLagrange
  rw [if_pos]
  · simp [exNodeGroup, vdmMatrix]
  · simp [exNodeGroup, vdmMatrix, List.range_succ]

theorem exNodeGroup_different : ¬ SameUnit (1 / 1000) exNodeGroup := by
  rintro ⟨h, _⟩
  simp [exNodeGroup] at h

/-- C125: the hypotheses of `C125_defined`, `C125_shapes` and `C125_mesh_nodes`. -/
example : (∃ r, computeNodes exLagrange (1 / 1000) 2 [exNodeGroup, exNodeEnds] = .ok r) ∧
    (∀ d, ResampleSound (exLagrange d)) ∧ exNodeEnds.unit = exNodeEnds.megUnit ∧ ¬ SameUnit (1 / 1000) exNodeGroup ∧
    ∀ (gi : Nat) g, [exNodeGroup, exNodeEnds][gi]? = some g → g.OK 2 2 := by
  refine ⟨?_, exLagrange_sound, rfl, exNodeGroup_different, ?_⟩
  · refine (C125_defined exLagrange (1 / 1000) 2 [exNodeGroup, exNodeEnds]).2 ?_ ?_ ?_
    · intro g hg
      simp only [List.mem_cons, List.not_mem_nil, or_false] at hg
      rcases hg with rfl | rfl <;> rfl
    · intro g hg
      simp only [List.mem_cons, List.not_mem_nil, or_false] at hg
      rcases hg with rfl | rfl <;> rfl
    · intro g hg
      simp only [List.mem_cons, List.not_mem_nil, or_false] at hg
      rcases hg with rfl | rfl
      · exact .inr ⟨_, exNodeGroup_matrix⟩
      · refine .inl ⟨rfl, ?_⟩
        simp [unitDistance, exNodeEnds, exNodeGroup]
  · intro gi g hg
    have := List.mem_of_getElem? hg
    simp only [List.mem_cons, List.not_mem_nil, or_false] at this
    rcases this with rfl | rfl
    · exact exNodeGroup_ok.1
    · exact exNodeGroup_ok.2

/-- C125: the hypotheses of `C125_accuracy`: the first coordinate on the first segment, and a Lipschitz constant. -/
example : (exNodeGroup.nodes[0]?.bind fun rows => rows[0]?) =
      some (exNodeGroup.megUnit.map (evalAt exNodeGroup.basis [0, 2])) ∧
    exNodeGroup.unit[0]? = some ![0] ∧
    ∀ x x' : Fin 1 → ℝ, |evalAt exNodeGroup.basis [0, 2] x - evalAt exNodeGroup.basis [0, 2] x'| ≤
      1 * √(∑ b, (x b - x' b) ^ 2) := by
  have he : ∀ x : Fin 1 → ℝ, evalAt exNodeGroup.basis [0, 2] x = 1 + x 0 := by
    intro x
    simp [exNodeGroup, evalAt]
    ring
  refine ⟨?_, rfl, fun x x' => ?_⟩
  · change _ = some [evalAt exNodeGroup.basis [0, 2] ![-1], evalAt exNodeGroup.basis [0, 2] ![1]]
    have h1 : evalAt exNodeGroup.basis [0, 2] ![-1] = 0 := (he ![-1]).trans (by simp)
    have h2 : evalAt exNodeGroup.basis [0, 2] ![1] = 2 := (he ![1]).trans (by simp; norm_num)
    rw [h1, h2]
    rfl
  · rw [he, he]
    simp [Real.sqrt_sq_eq_abs]

/-- C125: four calls: one object, another, which is kept, and twice that, the third time with a warning. -/
example : nodesCalls (.ok 'v') [false, true, false, true] ⟨none, 7⟩ =
    [⟨.ok (7, 'v'), false⟩, ⟨.ok (8, 'v'), false⟩, ⟨.ok (8, 'v'), true⟩, ⟨.ok (8, 'v'), false⟩] := rfl

end Meshmode
