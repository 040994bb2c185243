import Verif.Mesh.Consistency
import Mathlib.Algebra.Order.BigOperators.Group.List
import Mathlib.Algebra.Order.BigOperators.Ring.List

/-!
# Bounding boxes (C59)

`find_bounding_box` (meshmode/mesh/processing.py:854-867), over an ordered field.
-/
namespace Meshmode

variable {K : Type} [Field K] [LinearOrder K] {d : Nat}

/-! ## Model -/

/-- `np.min`, which raises for an empty array, meshmode/mesh/processing.py:864. -/
def npMin : List K → Option K
  | [] => none
  | a :: l => some (l.foldl min a)

/-- Exceptions of `find_bounding_box`. Code: meshmode/mesh/processing.py:860-867. -/
inductive BoxErr where
  /-- `ValueError("Mesh must have vertices to compute bounding box")` -/
  | noVertices
  /-- `ValueError` of `np.min` for no vertices -/
  | empty
  deriving DecidableEq, Repr

/-- `find_bounding_box`, meshmode/mesh/processing.py:854-867: the minimum and maximum along each axis.
(Without axes the empty arrays are returned even if there are no vertices.) -/
def findBoundingBox {N A : Type} (m : FMesh N (Fin d → K) A) :
    Except BoxErr (List K × List K) :=
  match m.vertices with
  | none => .error .noVertices
  | some vs =>
    match (List.finRange d).mapM (fun c => npMin (vs.map fun v => v c)),
        (List.finRange d).mapM (fun c => npMax (vs.map fun v => v c)) with
    | some lo, some hi => .ok (lo, hi)
    | _, _ => .error .empty

/-! ## Proofs -/

omit [Field K] in
theorem npMin_spec {l : List K} (hl : l ≠ []) : ∃ M, npMin l = some M ∧ M ∈ l ∧ ∀ x ∈ l, M ≤ x := by
  have key : ∀ (l : List K) (a : K), l.foldl min a ∈ a :: l ∧ ∀ x ∈ a :: l, l.foldl min a ≤ x := by
    intro l
    induction l with
    | nil => simp
    | cons b l ih =>
      intro a
      obtain ⟨h1, h2⟩ := ih (min a b)
      rw [List.foldl_cons]
      constructor
      · rcases List.mem_cons.1 h1 with h | h
        · rw [h]
          rcases min_choice a b with h' | h' <;> rw [h'] <;> simp
        · exact List.mem_cons_of_mem _ (List.mem_cons_of_mem _ h)
      · intro x hx
        have hab := h2 _ List.mem_cons_self
        rcases List.mem_cons.1 hx with rfl | hx
        · exact hab.trans (min_le_left _ _)
        · rcases List.mem_cons.1 hx with rfl | hx
          · exact hab.trans (min_le_right _ _)
          · exact h2 x (List.mem_cons_of_mem _ hx)
  cases l with
  | nil => exact absurd rfl hl
  | cons a l => exact ⟨_, rfl, key l a⟩

omit [Field K] in
/-- C59: for a mesh with at least one vertex, the box has one lower and one upper bound per axis: the
smallest and largest coordinate of a vertex on that axis. -/
theorem C59_box {N A : Type} {m : FMesh N (Fin d → K) A} {vs : List (Fin d → K)}
    (hv : m.vertices = some vs) (hne : vs ≠ []) :
    ∃ lo hi, findBoundingBox m = .ok (lo, hi) ∧ lo.length = d ∧ hi.length = d ∧
      ∀ (c : Fin d), ∃ a b, lo[c.1]? = some a ∧ hi[c.1]? = some b ∧
        (∃ v ∈ vs, v c = a) ∧ (∃ v ∈ vs, v c = b) ∧ ∀ v ∈ vs, a ≤ v c ∧ v c ≤ b := by
  have hmap : ∀ c : Fin d, (vs.map fun v => v c) ≠ [] := fun c => by simpa using hne
  obtain ⟨lo, hlo⟩ := mapM_isSome_of (l := List.finRange d)
    (f := fun c => npMin (vs.map fun v => v c)) fun c _ => by
      obtain ⟨M, h, _⟩ := npMin_spec (hmap c); exact ⟨M, h⟩
  obtain ⟨hi, hhi⟩ := mapM_isSome_of (l := List.finRange d)
    (f := fun c => npMax (vs.map fun v => v c)) fun c _ => by
      obtain ⟨M, h, _⟩ := npMax_spec (hmap c); exact ⟨M, h⟩
  obtain ⟨l1, g1⟩ := mapM_getElem?_some hlo
  obtain ⟨l2, g2⟩ := mapM_getElem?_some hhi
  refine ⟨lo, hi, by rw [findBoundingBox, hv]; simp only [hlo, hhi], by simpa using l1,
    by simpa using l2, fun c => ?_⟩
  have hc : (List.finRange d)[c.1]? = some c := by
    rw [List.getElem?_eq_getElem (by simp), List.getElem_finRange]; rfl
  obtain ⟨a, ha, ha'⟩ := g1 c.1 c hc
  obtain ⟨b, hb, hb'⟩ := g2 c.1 c hc
  obtain ⟨M, hM, hM1, hM2⟩ := npMin_spec (hmap c)
  obtain ⟨M', hM', hM1', hM2'⟩ := npMax_spec (hmap c)
  rw [hM, Option.some.injEq] at ha'
  rw [hM', Option.some.injEq] at hb'
  subst ha' hb'
  simp only [List.mem_map, forall_exists_index, and_imp, forall_apply_eq_imp_iff₂] at hM1 hM2 hM1' hM2'
  exact ⟨M, M', ha, hb, hM1, hM1', fun v hv => ⟨hM2 v hv, hM2' v hv⟩⟩

/-- C59: the box contains every point of an element that is a weighted mean of its vertices, hence all
elements with straight sides. -/
theorem C59_straight_partial [IsStrictOrderedRing K] {N A : Type} {m : FMesh N (Fin d → K) A}
    {vs : List (Fin d → K)} (hv : m.vertices = some vs) {lo hi : List K}
    (h : findBoundingBox m = .ok (lo, hi)) {pts : List (K × (Fin d → K))}
    (hp : ∀ p ∈ pts, 0 ≤ p.1 ∧ p.2 ∈ vs) (hsum : (pts.map Prod.fst).sum = 1) (c : Fin d) {a b : K}
    (ha : lo[c.1]? = some a) (hb : hi[c.1]? = some b) :
    a ≤ (pts.map fun p => p.1 * p.2 c).sum ∧ (pts.map fun p => p.1 * p.2 c).sum ≤ b := by
  have hne : vs ≠ [] := by
    rintro rfl
    cases pts with
    | nil => simp at hsum
    | cons p pts => exact absurd (hp p List.mem_cons_self).2 (by simp)
  obtain ⟨lo', hi', h', _, _, hall⟩ := C59_box hv hne
  rw [h, Except.ok.injEq, Prod.mk.injEq] at h'
  obtain ⟨rfl, rfl⟩ := h'
  obtain ⟨a', b', ha', hb', _, _, hbound⟩ := hall c
  rw [ha, Option.some.injEq] at ha'
  rw [hb, Option.some.injEq] at hb'
  subst ha' hb'
  have hlow : (pts.map fun p => p.1 * a).sum = a := by
    rw [List.sum_map_mul_right, hsum, one_mul]
  have hhigh : (pts.map fun p => p.1 * b).sum = b := by
    rw [List.sum_map_mul_right, hsum, one_mul]
  constructor
  · conv_lhs => rw [← hlow]
    exact List.sum_le_sum fun p hp' =>
      mul_le_mul_of_nonneg_left (hbound _ (hp p hp').2).1 (hp p hp').1
  · conv_rhs => rw [← hhigh]
    exact List.sum_le_sum fun p hp' =>
      mul_le_mul_of_nonneg_left (hbound _ (hp p hp').2).2 (hp p hp').1

omit [Field K] in
/-- C59: the exceptions: no vertices, or an empty array of vertices. -/
theorem C59_errors {N A : Type} {m : FMesh N (Fin d → K) A} (hd : 0 < d) :
    (findBoundingBox m = .error .noVertices ↔ m.vertices = none) ∧
    (findBoundingBox m = .error .empty ↔ m.vertices = some []) := by
  unfold findBoundingBox
  cases hv : m.vertices with
  | none => simp
  | some vs =>
    cases vs with
    | nil =>
      obtain ⟨d, rfl⟩ : ∃ k, d = k + 1 := ⟨d - 1, by omega⟩
      simp [List.finRange_succ, npMin]
    | cons v vs =>
      obtain ⟨lo, hi, h, _⟩ := C59_box (m := m) hv (by simp)
      rw [findBoundingBox, hv] at h
      simp only at h ⊢
      rw [h]
      simp

/-! ### Examples -/

/-- One curved element of order two in the plane: its middle node is above both end points. -/
def exArc : FMesh (List (Fin 2 → ℚ)) (Fin 2 → ℚ) Unit :=
  ⟨2, some [exPoint (-1) 0, exPoint 1 0],
    [⟨0, [[0], [1]], [[0, 1]], [[exPoint (-1) 0, exPoint 0 1, exPoint 1 0]]⟩],
    ⟨some true, .missing, .missing⟩⟩

/-- The hypotheses of the theorems hold for the example. -/
example : ∃ lo hi, findBoundingBox exArc = .ok (lo, hi) := by
  obtain ⟨lo, hi, h, _⟩ := C59_box (m := exArc) rfl (by simp)
  exact ⟨lo, hi, h⟩

/-- C59 fails for curved elements: a node can be outside the box. -/
theorem C59_curved_counterexample : ∃ lo hi, findBoundingBox exArc = .ok (lo, hi) ∧
    ∃ g ∈ exArc.groups, ∃ nds ∈ g.nodes, ∃ p ∈ nds, ∃ b, hi[1]? = some b ∧ b < p 1 := by
  obtain ⟨lo, hi, h, _, _, hall⟩ := C59_box (m := exArc) rfl (by simp)
  obtain ⟨a, b, _, hb, _, ⟨v, hv, rfl⟩, _⟩ := hall 1
  refine ⟨lo, hi, h, _, List.mem_singleton.2 rfl, _, List.mem_singleton.2 rfl, exPoint 0 1,
    by simp, _, hb, ?_⟩
  simp only [List.mem_cons, List.not_mem_nil, or_false] at hv
  rcases hv with rfl | rfl <;> simp [exPoint]

end Meshmode
