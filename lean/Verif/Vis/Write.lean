import Verif.Np
import Mathlib.Algebra.Module.Rat
import Mathlib.Algebra.Module.BigOperators
import Mathlib.Algebra.BigOperators.GroupWithZero.Action
import Mathlib.Algebra.Order.Field.Rat
import Mathlib.Algebra.Order.AbsoluteValue.Basic
import Mathlib.Tactic.Module
import Mathlib.Tactic.Ring
import Mathlib.Tactic.NormNum
import Mathlib.Tactic.FieldSimp
import Mathlib.Tactic.LinearCombination

/-!
# Repeated writes by a visualizer (C42)

`Visualizer.write_vtk_file` and `Visualizer._vis_nodes_numpy`
(meshmode/discretization/visualization.py).
-/
namespace Meshmode

variable {V : Type} [AddCommGroup V] [Module ℚ V]

/-! ## Model -/

/-- `np.mean(nodes_view, axis=-1)` for one element, meshmode/discretization/visualization.py:853. -/
def centroid (el : List V) : V := ((1 : ℚ) / el.length) • el.sum

/-- The assignment to the nodes of one element, meshmode/discretization/visualization.py:854-857. -/
def shrinkElement (s : ℚ) (el : List V) : List V :=
  el.map fun x => s • x + (1 - s) • centroid el

/-- "shrink elements", meshmode/discretization/visualization.py:846-859, on the nodes by group and
element (the flat array is cut up by `node_nr_base`, `nelements` and `nunit_dofs`). -/
def shrinkNodes (s : ℚ) (nodes : List (List (List V))) : List (List (List V)) :=
  if |s - 1| > 1 / 10 ^ 14 then nodes.map (·.map (shrinkElement s)) else nodes

/-- A visualizer: the nodes of `vis_discr`, the shrink factor, and the array memoized by
`_vis_nodes_numpy`. Code: meshmode/discretization/visualization.py:552-590. -/
structure Visualizer (V : Type) where
  nodes : List (List (List V))
  shrink : ℚ
  cache : Option (List (List (List V))) := none

/-- `_vis_nodes_numpy`, meshmode/discretization/visualization.py:629-638: the memoized array. -/
def Visualizer.visNodes (w : Visualizer V) : List (List (List V)) × Visualizer V :=
  match w.cache with
  | some ns => (ns, w)
  | none => (w.nodes, { w with cache := some w.nodes })

/-- What a caller may do with a visualizer.
Code: meshmode/discretization/visualization.py:592-627, 778-935. -/
inductive VisOp where
  /-- `write_vtk_file`; `exists_` says whether the output file exists -/
  | vtk (exists_ overwrite : Bool)
  /-- `write_vtkhdf_file`, `write_xdmf_file`, `show_scalar_in_mayavi`: use the nodes as they are -/
  | other
  deriving DecidableEq, Repr

/-- One operation, and the points that it writes, `none` for a `FileExistsError`:
meshmode/discretization/visualization.py:835-921 for `write_vtk_file`.  `nodes_view` is a view of the
memoized array, so that the assignment changes the latter, before it is checked whether the file exists. -/
def Visualizer.step (w : Visualizer V) : VisOp → Option (List (List (List V))) × Visualizer V
  | .vtk exists_ overwrite =>
    let (ns, w) := w.visNodes
    let ns := shrinkNodes w.shrink ns
    (if exists_ && !overwrite then none else some ns, { w with cache := some ns })
  | .other =>
    let (ns, w) := w.visNodes
    (some ns, w)

/-- A visualizer after some operations.
Code: meshmode/discretization/visualization.py:592-627, 778-935. -/
def Visualizer.run (w : Visualizer V) (ops : List VisOp) : Visualizer V :=
  ops.foldl (fun w op => (w.step op).2) w

/-! ## Specification -/

/-- The nodes, each moved towards the centroid of its element by the factor.
(Specification or proof vocabulary, no code.) -/
def shrunkAbout (s : ℚ) (nodes : List (List (List V))) : List (List (List V)) :=
  nodes.map fun g => g.map fun el =>
    el.map fun x => ((1 : ℚ) / el.length) • el.sum + s • (x - ((1 : ℚ) / el.length) • el.sum)

/-- Whether an operation is a call of `write_vtk_file`.
(Specification or proof vocabulary, no code.) -/
def VisOp.isVtk : VisOp → Bool
  | .vtk _ _ => true
  | .other => false

/-! ## Lemmas -/

theorem shrunkAbout_one (nodes : List (List (List V))) : shrunkAbout 1 nodes = nodes := by
  unfold shrunkAbout
  conv_rhs => rw [← List.map_id nodes]
  refine List.map_congr_left fun g _ => ?_
  rw [id]
  conv_rhs => rw [← List.map_id g]
  refine List.map_congr_left fun el _ => ?_
  rw [id]
  conv_rhs => rw [← List.map_id el]
  refine List.map_congr_left fun x _ => ?_
  rw [id, one_smul, add_sub_cancel]

theorem sum_map_affine (el : List V) (s : ℚ) (c : V) :
    (el.map fun x => c + s • (x - c)).sum = s • el.sum + ((1 - s) * el.length) • c := by
  induction el with
  | nil => simp
  | cons a l ih =>
    simp only [List.map_cons, List.sum_cons, ih, List.length_cons]
    push_cast
    module

/-- The centroid stays where it is. -/
theorem centroid_shrunk (el : List V) (s : ℚ) :
    centroid (el.map fun x => centroid el + s • (x - centroid el)) = centroid el := by
  by_cases h : el = []
  · simp [h]
  · have hl : (el.length : ℚ) ≠ 0 := by
      have : el.length ≠ 0 := by simpa using h
      exact_mod_cast this
    unfold centroid
    rw [sum_map_affine, List.length_map, smul_add, smul_smul, smul_smul, smul_smul, ← add_smul]
    congr 1
    field_simp
    ring

theorem shrinkElement_eq (s : ℚ) (el : List V) :
    shrinkElement s el = el.map fun x => centroid el + s • (x - centroid el) := by
  unfold shrinkElement
  refine List.map_congr_left fun x _ => ?_
  module

theorem shrunkAbout_shrunkAbout (s t : ℚ) (nodes : List (List (List V))) :
    shrunkAbout s (shrunkAbout t nodes) = shrunkAbout (s * t) nodes := by
  unfold shrunkAbout
  rw [List.map_map]
  refine List.map_congr_left fun g _ => ?_
  rw [Function.comp, List.map_map]
  refine List.map_congr_left fun el _ => ?_
  have h := centroid_shrunk el t
  unfold centroid at h
  rw [Function.comp, h, List.map_map]
  refine List.map_congr_left fun x _ => ?_
  rw [Function.comp]
  module

theorem shrinkNodes_eq (s : ℚ) (nodes : List (List (List V))) :
    shrinkNodes s nodes = shrunkAbout (if |s - 1| > 1 / 10 ^ 14 then s else 1) nodes := by
  unfold shrinkNodes
  split
  · unfold shrunkAbout
    refine List.map_congr_left fun g _ => List.map_congr_left fun el _ => ?_
    rw [shrinkElement_eq]
    rfl
  · rw [shrunkAbout_one]

/-- The factor as used. (Specification or proof vocabulary, no code.) -/
def effectiveShrink (s : ℚ) : ℚ := if |s - 1| > 1 / 10 ^ 14 then s else 1

/-- The array memoized, or to be memoized. (Specification or proof vocabulary, no code.) -/
def Visualizer.current (w : Visualizer V) : List (List (List V)) := w.cache.getD w.nodes

omit [AddCommGroup V] [Module ℚ V] in
theorem visNodes_eq (w : Visualizer V) :
    w.visNodes = (w.current, { w with cache := some w.current }) := by
  unfold Visualizer.visNodes Visualizer.current
  cases h : w.cache with
  | none => rfl
  | some ns =>
    simp only [Option.getD_some]
    rw [← h]

theorem step_current (w : Visualizer V) (op : VisOp) :
    (w.step op).2.current = (if op.isVtk then shrunkAbout (effectiveShrink w.shrink) w.current
      else w.current) ∧ (w.step op).2.shrink = w.shrink ∧ (w.step op).2.nodes = w.nodes := by
  cases op with
  | vtk a b =>
    simp only [Visualizer.step, visNodes_eq, VisOp.isVtk, if_true]
    refine ⟨?_, trivial, trivial⟩
    rw [Visualizer.current]
    simp only [Option.getD_some]
    exact shrinkNodes_eq _ _
  | other =>
    simp only [Visualizer.step, visNodes_eq, VisOp.isVtk, Bool.false_eq_true, if_false]
    exact ⟨rfl, trivial, trivial⟩

theorem run_current (w : Visualizer V) (ops : List VisOp) :
    (w.run ops).current =
      shrunkAbout (effectiveShrink w.shrink ^ (ops.countP VisOp.isVtk)) w.current ∧
    (w.run ops).shrink = w.shrink ∧ (w.run ops).nodes = w.nodes := by
  unfold Visualizer.run
  induction ops generalizing w with
  | nil => simp [shrunkAbout_one]
  | cons op ops ih =>
    rw [List.foldl_cons]
    obtain ⟨h1, h2, h3⟩ := step_current w op
    obtain ⟨i1, i2, i3⟩ := ih (w.step op).2
    refine ⟨?_, i2.trans h2, i3.trans h3⟩
    rw [i1, h1, h2, List.countP_cons]
    cases op.isVtk with
    | true => simp only [if_true]; rw [shrunkAbout_shrunkAbout, pow_succ]
    | false => simp

/-! ## Properties -/

/-- C42, as far as it holds: after any operations among which there are `n` calls of `write_vtk_file`
(even ones that failed because the file existed), the next call writes the nodes shrunk about the centroids
by the `n + 1`-st power of the shrink factor. -/
theorem C42_nth_write (nodes : List (List (List V))) (s : ℚ) (ops : List VisOp) (e o : Bool)
    (r : List (List (List V)))
    (h : (((⟨nodes, s, none⟩ : Visualizer V).run ops).step (.vtk e o)).1 = some r) :
    r = shrunkAbout (effectiveShrink s ^ (ops.countP VisOp.isVtk + 1)) nodes := by
  obtain ⟨h1, h2, _⟩ := run_current (⟨nodes, s, none⟩ : Visualizer V) ops
  simp only [Visualizer.step, visNodes_eq] at h
  split at h
  · simp at h
  · simp only [Option.some.injEq] at h
    rw [← h, h1, h2, shrinkNodes_eq]
    show shrunkAbout (effectiveShrink s) (shrunkAbout _ nodes) = _
    rw [shrunkAbout_shrunkAbout, pow_succ']

/-- C42, partial: what is missing is repeated writes with a shrink factor other than 1.  The first write
has the nodes shrunk by the factor; and if the factor is 1 (or within 1e-14 of it), every write has the nodes
themselves. -/
theorem C42_repeat_partial (nodes : List (List (List V))) (s : ℚ) (ops : List VisOp) (e o : Bool)
    (r : List (List (List V)))
    (h : (((⟨nodes, s, none⟩ : Visualizer V).run ops).step (.vtk e o)).1 = some r) :
    (ops.countP VisOp.isVtk = 0 → r = shrunkAbout (effectiveShrink s) nodes) ∧
    (|s - 1| ≤ 1 / 10 ^ 14 → r = nodes) := by
  have := C42_nth_write nodes s ops e o r h
  constructor
  · intro h0
    rw [this, h0, Nat.zero_add, pow_one]
  · intro h1
    have : effectiveShrink s = 1 := if_neg (not_lt.2 h1)
    rw [C42_nth_write nodes s ops e o r h, this, one_pow, shrunkAbout_one]

/-- C42: exactly when two successive writes agree: the shrink factor is 1 (or within 1e-14 of it) or 0, or
every element is a single point. -/
theorem C42_twice_iff (nodes : List (List (List V))) (s : ℚ) (e o e' o' : Bool)
    (r r' : List (List (List V)))
    (h : ((⟨nodes, s, none⟩ : Visualizer V).step (.vtk e o)).1 = some r)
    (h' : (((⟨nodes, s, none⟩ : Visualizer V).step (.vtk e o)).2.step (.vtk e' o')).1 = some r') :
    r = r' ↔ |s - 1| ≤ 1 / 10 ^ 14 ∨ s = 0 ∨
      ∀ g ∈ nodes, ∀ el ∈ g, ∀ x ∈ el, x = ((1 : ℚ) / el.length) • el.sum := by
  have hr := C42_nth_write nodes s [] e o r h
  have hr' := C42_nth_write nodes s [.vtk e o] e' o' r' h'
  simp only [List.countP_nil, Nat.zero_add, pow_one] at hr
  have hc : List.countP VisOp.isVtk [.vtk e o] = 1 := by simp [VisOp.isVtk]
  rw [hc] at hr'
  rw [hr, hr']
  have hmap : ∀ (a b : ℚ), shrunkAbout a nodes = shrunkAbout b nodes ↔
      ∀ g ∈ nodes, ∀ el ∈ g, ∀ x ∈ el, (a - b) • (x - ((1 : ℚ) / el.length) • el.sum) = 0 := by
    intro a b
    unfold shrunkAbout
    rw [List.map_inj_left]
    refine forall₂_congr fun g _ => ?_
    rw [List.map_inj_left]
    refine forall₂_congr fun el _ => ?_
    rw [List.map_inj_left]
    refine forall₂_congr fun x _ => ?_
    rw [add_right_inj, sub_smul, sub_eq_zero]
  rw [hmap]
  by_cases h1 : |s - 1| ≤ 1 / 10 ^ 14
  · have : effectiveShrink s = 1 := if_neg (not_lt.2 h1)
    rw [this]
    refine iff_of_true ?_ (Or.inl h1)
    simp
  · have h2 : effectiveShrink s = s := if_pos (not_le.1 h1)
    have h3 : s ≠ 1 := by
      rintro rfl
      exact h1 (by norm_num)
    rw [h2]
    by_cases h4 : s = 0
    · simp [h4]
    · have h5 : s - s ^ (1 + 1) ≠ 0 := by
        have : s - s ^ (1 + 1) = s * (1 - s) := by ring
        rw [this]
        exact mul_ne_zero h4 (sub_ne_zero.2 h3.symm)
      simp only [smul_eq_zero, h5, false_or, sub_eq_zero, h1, h4]

/-- Two writes of one segment with shrink factor 1/2: the second file has a segment of half the length. -/
theorem C42_twice_counterexample :
    ((⟨[[[(0 : ℚ), 4]]], 1 / 2, none⟩ : Visualizer ℚ).step (.vtk false false)).1 = some [[[1, 3]]] ∧
    (((⟨[[[(0 : ℚ), 4]]], 1 / 2, none⟩ : Visualizer ℚ).step (.vtk false false)).2.step
      (.vtk true true)).1 = some [[[3 / 2, 5 / 2]]] ∧
    (((⟨[[[(0 : ℚ), 4]]], 1 / 2, none⟩ : Visualizer ℚ).step (.vtk true false)).2.step .other).1 =
      some [[[1, 3]]] := by
  have h : |(1 : ℚ) / 2 - 1| > 1 / 10 ^ 14 := by norm_num [abs]
  refine ⟨?_, ?_, ?_⟩ <;>
  · simp only [Visualizer.step, Visualizer.visNodes, shrinkNodes, h, if_true]
    norm_num [shrinkElement, centroid]

end Meshmode
