import Verif.Mesh.Affine
import Verif.Mesh.Lazy
import Verif.Mesh.Types

/-!
# Comparing meshes (C57)

The methods `__eq__` of meshes and their parts: meshmode/mesh/__init__.py:283-292, 484-491, 538-543,
615-626, 675-683, 766-775, 1495-1527.  Values that are not equal to themselves (NaN) are not
modelled.  Results are `Option Bool`: `none` if the comparison raises an exception, which can come
from affine maps (`AffMap.eq?`).
-/
namespace Meshmode

/-! ## Model -/

/-- Python's `and` of two conditions, the second evaluated only when needed; used in all methods,
meshmode/mesh/__init__.py:288-292, 1517-1524. -/
def pyAnd (a : Option Bool) (b : Option Bool) : Option Bool :=
  match a with
  | none => none
  | some false => some false
  | some true => b

/-- Comparison of tuples: items in order up to the first that differ, then the lengths (used for
`groups` and adjacency, meshmode/mesh/__init__.py:1519, 1523; the tuples are made in
meshmode/mesh/__init__.py:1097-1100, 1998-2000). -/
def tupleEq {α : Type} (eq : α → α → Option Bool) : List α → List α → Option Bool
  | [], [] => some true
  | a :: l, b :: l' => pyAnd (eq a b) (tupleEq eq l l')
  | _, _ => some false

/-- `__eq__` of the facial adjacency groups, meshmode/mesh/__init__.py:538-543, 615-626, 675-683,
766-775. -/
def fagEq {A : Type} (eqA : A → A → Option Bool) : Fag A → Fag A → Option Bool
  | .interior i j r a, .interior i' j' r' a' =>
    pyAnd (some (i == i')) (pyAnd (some (j == j')) (pyAnd (some (decide (r = r'))) (eqA a a')))
  | .boundary i t f, .boundary i' t' f' =>
    pyAnd (some (i == i')) (pyAnd (some (decide (t = t'))) (some (decide (f = f'))))
  | .interPart i t p r a, .interPart i' t' p' r' a' =>
    pyAnd (some (i == i')) (pyAnd (some (decide (t = t')))
      (pyAnd (some (decide ((r.map fun x => (x.el, x.face)) = r'.map fun x => (x.el, x.face))))
        (pyAnd (some (p == p'))
          (pyAnd (some (decide ((r.map fun x => (x.nel, x.nface)) = r'.map fun x => (x.nel, x.nface))))
            (eqA a a')))))
  | _, _ => some false

/-- The attributes of an element group that are compared, meshmode/mesh/__init__.py:199-290: its
class, `order`, `vertex_indices`, `nodes`, `unit_nodes`. -/
structure EqGroup (X : Type) where
  cls : Nat
  order : Nat
  vertexIndices : Option (List (List Nat))
  nodes : List (List X)
  unitNodes : List (List X)
  deriving DecidableEq

/-- `optional_array_equal`, meshmode/mesh/tools.py:72-80. -/
def optionalArrayEqual {α : Type} [DecidableEq α] : Option α → Option α → Bool
  | none, b => b.isNone
  | some _, none => false
  | some a, some b => decide (a = b)

/-- `MeshElementGroup.__eq__`, meshmode/mesh/__init__.py:283-292. -/
def groupEq {X : Type} [DecidableEq X] (g g' : EqGroup X) : Option Bool :=
  pyAnd (some (g.cls == g'.cls)) (pyAnd (some (g.order == g'.order))
    (pyAnd (some (optionalArrayEqual g.vertexIndices g'.vertexIndices))
      (pyAnd (some (decide (g.nodes = g'.nodes))) (some (decide (g.unitNodes = g'.unitNodes))))))

/-- A mesh with everything it stores, meshmode/mesh/__init__.py:1135-1210: class, vertices, groups,
identifier types, adjacency and conformity. -/
structure EqMesh (X A : Type) where
  cls : Nat
  vertices : Option (List (List X))
  groups : List (EqGroup X)
  vertexId : Nat
  elementId : Nat
  faceId : Nat
  nodal : Slot (List Nat × List Nat)
  facial : Slot (List (List (Fag A)))
  conforming : Option Bool

/-- Comparison of attributes that are `None`, `False` or data, meshmode/mesh/__init__.py:1522-1523. -/
def slotEq {α : Type} (eq : α → α → Option Bool) : Slot α → Slot α → Option Bool
  | .missing, .missing => some true
  | .disabled, .disabled => some true
  | .data a, .data b => eq a b
  | _, _ => some false

/-- `Mesh.__eq__`, meshmode/mesh/__init__.py:1495-1524. -/
def meshEq {X A : Type} [DecidableEq X] (eqA : A → A → Option Bool) (m m' : EqMesh X A) :
    Option Bool :=
  pyAnd (some (m.cls == m'.cls))
    (pyAnd (some (optionalArrayEqual m.vertices m'.vertices))
      (pyAnd (tupleEq groupEq m.groups m'.groups)
        (pyAnd (some (m.vertexId == m'.vertexId))
          (pyAnd (some (m.elementId == m'.elementId))
            (pyAnd (slotEq (fun a b => some (decide (a = b))) m.nodal m'.nodal)
              (pyAnd (slotEq (tupleEq (tupleEq (fagEq eqA))) m.facial m'.facial)
                (some (m.conforming == m'.conforming))))))))

/-! ## Specification -/

/-- An answer, if there is one, says whether the two are the same.
(Specification or proof vocabulary, no code.) -/
def EqExact {α : Type} (eq : α → α → Option Bool) : Prop :=
  ∀ a b r, eq a b = some r → (r = true ↔ a = b)

/-- The affine maps of an adjacency group. (Specification or proof vocabulary, no code.) -/
def Fag.affs {A : Type} : Fag A → List A
  | .interior _ _ _ a => [a]
  | .boundary .. => []
  | .interPart _ _ _ _ a => [a]

/-- The affine maps of a mesh. (Specification or proof vocabulary, no code.) -/
def EqMesh.affs {X A : Type} (m : EqMesh X A) : List A :=
  match m.facial with
  | .data fs => fs.flatten.flatMap Fag.affs
  | _ => []

/-! ## Proofs -/

section
variable {α A X : Type}

theorem pyAnd_some {a b : Option Bool} {r : Bool} (h : pyAnd a b = some r) :
    (r = true ↔ a = some true ∧ b = some true) := by
  cases a with
  | none => simp [pyAnd] at h
  | some x => cases x <;> cases r <;> simp_all [pyAnd]

theorem pyAnd_isSome {a b : Option Bool} (ha : a.isSome) (hb : a = some true → b.isSome) :
    (pyAnd a b).isSome := by
  cases a with
  | none => simp at ha
  | some x => cases x <;> simp_all [pyAnd]

theorem eqExact_iff {eq : α → α → Option Bool} (h : EqExact eq) {a b : α} :
    eq a b = some true → a = b := fun hab => (h a b true hab).1 rfl

theorem pyAnd_true {a b : Option Bool} : pyAnd a b = some true ↔ a = some true ∧ b = some true := by
  cases a with
  | none => simp [pyAnd]
  | some x => cases x <;> simp [pyAnd]

/-- Exactness in terms of the answer `True` alone. -/
theorem eqExact_of {eq : α → α → Option Bool} (h1 : ∀ a b, eq a b = some true → a = b)
    (h2 : ∀ a r, eq a a = some r → r = true) : EqExact eq := by
  intro a b r h
  constructor
  · rintro rfl; exact h1 a b h
  · rintro rfl; exact h2 a r h

theorem tupleEq_exact {eq : α → α → Option Bool} (h : EqExact eq) : EqExact (tupleEq eq) := by
  intro l
  induction l with
  | nil =>
    intro l' r hr
    cases l' <;> simp_all [tupleEq, eq_comm]
  | cons a l ih =>
    intro l' r hr
    cases l' with
    | nil =>
      simp only [tupleEq, Option.some.injEq] at hr
      subst hr; simp
    | cons b l' =>
      rw [tupleEq] at hr
      rw [pyAnd_some hr, List.cons.injEq]
      constructor
      · rintro ⟨h1, h2⟩
        exact ⟨eqExact_iff h h1, (ih l' true h2).1 rfl⟩
      · rintro ⟨rfl, rfl⟩
        cases hx : eq a a with
        | none => rw [hx] at hr; simp [pyAnd] at hr
        | some x =>
          obtain rfl := (h a a x hx).2 rfl
          rw [hx] at hr
          simp only [pyAnd] at hr
          exact ⟨rfl, by rw [hr, (ih l r hr).2 rfl]⟩

theorem rows_eq_of {r r' : List AdjRow}
    (h1 : (r.map fun x => (x.el, x.face)) = r'.map fun x => (x.el, x.face))
    (h2 : (r.map fun x => (x.nel, x.nface)) = r'.map fun x => (x.nel, x.nface)) : r = r' := by
  induction r generalizing r' with
  | nil => cases r' <;> simp_all
  | cons a r ih =>
    cases r' with
    | nil => simp at h1
    | cons b r' =>
      obtain ⟨a1, a2, a3, a4⟩ := a
      obtain ⟨b1, b2, b3, b4⟩ := b
      simp only [List.map_cons, List.cons.injEq, Prod.mk.injEq] at h1 h2
      obtain ⟨⟨rfl, rfl⟩, h1⟩ := h1
      obtain ⟨⟨rfl, rfl⟩, h2⟩ := h2
      rw [ih h1 h2]

theorem fagEq_exact {eqA : A → A → Option Bool} (h : EqExact eqA) : EqExact (fagEq eqA) := by
  refine eqExact_of ?_ ?_
  · intro a b hab
    cases a <;> cases b <;> simp only [fagEq, pyAnd_true, Option.some.injEq, beq_iff_eq,
      decide_eq_true_eq, Bool.false_eq_true] at hab
    · obtain ⟨rfl, rfl, rfl, h4⟩ := hab
      rw [eqExact_iff h h4]
    · obtain ⟨rfl, rfl, rfl⟩ := hab; rfl
    · obtain ⟨rfl, rfl, h3, rfl, h5, h6⟩ := hab
      rw [eqExact_iff h h6, rows_eq_of h3 h5]
  · intro a r hr
    cases a <;> simp only [fagEq, beq_self_eq_true, decide_true, pyAnd, Option.some.injEq] at hr
    · exact (h _ _ _ hr).2 rfl
    · exact hr.symm
    · exact (h _ _ _ hr).2 rfl

theorem optionalArrayEqual_iff [DecidableEq α] {a b : Option α} :
    optionalArrayEqual a b = true ↔ a = b := by
  cases a <;> cases b <;> simp [optionalArrayEqual]

theorem groupEq_exact [DecidableEq X] : EqExact (groupEq (X := X)) := by
  refine eqExact_of ?_ ?_
  · rintro ⟨a1, a2, a3, a4, a5⟩ ⟨b1, b2, b3, b4, b5⟩ h
    simp only [groupEq, pyAnd_true, Option.some.injEq, beq_iff_eq, decide_eq_true_eq,
      optionalArrayEqual_iff] at h
    obtain ⟨rfl, rfl, rfl, rfl, rfl⟩ := h
    rfl
  · intro a r hr
    have : optionalArrayEqual a.vertexIndices a.vertexIndices = true := optionalArrayEqual_iff.2 rfl
    simpa [groupEq, pyAnd, this, eq_comm] using hr

theorem slotEq_exact {eq : α → α → Option Bool} (h : EqExact eq) : EqExact (slotEq eq) := by
  intro a b r hr
  cases a <;> cases b <;> simp only [slotEq, Option.some.injEq] at hr
  case data.data a b => rw [h _ _ _ hr]; simp
  all_goals subst hr; simp

/-- C57: whenever comparing two meshes gives an answer, the answer is `True` exactly when they agree
in class, vertices, groups, vertex and element identifier types, stored adjacency and conformity. -/
theorem C57_equal_iff [DecidableEq X] {eqA : A → A → Option Bool} (h : EqExact eqA)
    {m m' : EqMesh X A} {r : Bool} (hr : meshEq eqA m m' = some r) :
    r = true ↔ m' = { m with faceId := m'.faceId } := by
  have hfac := slotEq_exact (tupleEq_exact (tupleEq_exact (fagEq_exact h)))
  have hnod : EqExact (slotEq fun a b : List Nat × List Nat => some (decide (a = b))) :=
    slotEq_exact fun a b r h => by simp at h; rw [← h]; simp
  constructor
  · rintro rfl
    simp only [meshEq, pyAnd_true, Option.some.injEq, beq_iff_eq, optionalArrayEqual_iff] at hr
    obtain ⟨h1, h2, h3, h4, h5, h6, h7, h8⟩ := hr
    obtain ⟨c, v, g, t1, t2, t3, n, f, k⟩ := m
    obtain ⟨c', v', g', t1', t2', t3', n', f', k'⟩ := m'
    simp only at h1 h2 h3 h4 h5 h6 h7 h8
    rw [EqMesh.mk.injEq]
    exact ⟨h1.symm, h2.symm, (eqExact_iff (tupleEq_exact groupEq_exact) h3).symm, h4.symm, h5.symm,
      rfl, (eqExact_iff hnod h6).symm, (eqExact_iff hfac h7).symm, h8.symm⟩
  · intro he
    rw [he] at hr
    have h1 : ∃ x, tupleEq groupEq m.groups m.groups = some x := by
      cases hx : tupleEq groupEq m.groups m.groups with
      | some x => exact ⟨x, rfl⟩
      | none => rw [meshEq] at hr; simp [pyAnd, hx, optionalArrayEqual_iff.2] at hr
    obtain ⟨x, hx⟩ := h1
    obtain rfl := (tupleEq_exact groupEq_exact _ _ _ hx).2 rfl
    have h2 : ∃ x, slotEq (fun a b => some (decide (a = b))) m.nodal m.nodal = some x := by
      cases m.nodal <;> simp [slotEq]
    obtain ⟨y, hy⟩ := h2
    obtain rfl := (hnod _ _ _ hy).2 rfl
    simp only [meshEq, optionalArrayEqual_iff.2, beq_self_eq_true, hx, hy, pyAnd] at hr
    cases hz : slotEq (tupleEq (tupleEq (fagEq eqA))) m.facial m.facial with
    | none => rw [hz] at hr; simp at hr
    | some z =>
      obtain rfl := (hfac _ _ _ hz).2 rfl
      rw [hz] at hr
      simpa [eq_comm] using hr

theorem tupleEq_isSome {eq : α → α → Option Bool} {l l' : List α}
    (h : ∀ a ∈ l, ∀ b ∈ l', (eq a b).isSome) : (tupleEq eq l l').isSome := by
  induction l generalizing l' with
  | nil => cases l' <;> simp [tupleEq]
  | cons a l ih =>
    cases l' with
    | nil => simp [tupleEq]
    | cons b l' =>
      exact pyAnd_isSome (h a List.mem_cons_self b List.mem_cons_self) fun _ =>
        ih fun x hx y hy => h x (List.mem_cons_of_mem _ hx) y (List.mem_cons_of_mem _ hy)

theorem fagEq_isSome {eqA : A → A → Option Bool} {f f' : Fag A}
    (h : ∀ a ∈ f.affs, ∀ b ∈ f'.affs, (eqA a b).isSome) : (fagEq eqA f f').isSome := by
  cases f <;> cases f' <;> simp only [fagEq, Option.isSome_some]
  · exact pyAnd_isSome rfl fun _ => pyAnd_isSome rfl fun _ => pyAnd_isSome rfl fun _ =>
      h _ (List.mem_singleton.2 rfl) _ (List.mem_singleton.2 rfl)
  · exact pyAnd_isSome rfl fun _ => pyAnd_isSome rfl fun _ => rfl
  · exact pyAnd_isSome rfl fun _ => pyAnd_isSome rfl fun _ => pyAnd_isSome rfl fun _ =>
      pyAnd_isSome rfl fun _ => pyAnd_isSome rfl fun _ =>
      h _ (List.mem_singleton.2 rfl) _ (List.mem_singleton.2 rfl)

/-- C57: comparing two meshes gives an answer if comparing each affine map of the one with each of the
other does. -/
theorem C57_defined_partial [DecidableEq X] {eqA : A → A → Option Bool} {m m' : EqMesh X A}
    (h : ∀ a ∈ m.affs, ∀ b ∈ m'.affs, (eqA a b).isSome) : (meshEq eqA m m').isSome := by
  refine pyAnd_isSome rfl fun _ => pyAnd_isSome rfl fun _ => pyAnd_isSome ?_ fun _ =>
    pyAnd_isSome rfl fun _ => pyAnd_isSome rfl fun _ => pyAnd_isSome ?_ fun _ =>
    pyAnd_isSome ?_ fun _ => rfl
  · exact tupleEq_isSome fun a _ b _ => pyAnd_isSome rfl fun _ => pyAnd_isSome rfl fun _ =>
      pyAnd_isSome rfl fun _ => pyAnd_isSome rfl fun _ => rfl
  · cases m.nodal <;> cases m'.nodal <;> rfl
  · cases hf : m.facial <;> cases hf' : m'.facial <;> simp only [slotEq, Option.isSome_some]
    rename_i fs fs'
    refine tupleEq_isSome fun l hl l' hl' => tupleEq_isSome fun f hfm f' hfm' => fagEq_isSome ?_
    intro a ha b hb
    refine h a ?_ b ?_
    · simp only [EqMesh.affs, hf, List.mem_flatMap, List.mem_flatten]
      exact ⟨f, ⟨l, hl, hfm⟩, ha⟩
    · simp only [EqMesh.affs, hf', List.mem_flatMap, List.mem_flatten]
      exact ⟨f', ⟨l', hl', hfm'⟩, hb⟩

end

section
variable {d : Nat} {K : Type} [DecidableEq K]

/-- The comparison of affine maps is exact when it answers. -/
theorem affEq_exact : EqExact (AffMap.eq? (d := d) (K := K)) := by
  rintro ⟨G, o⟩ ⟨G', o'⟩ r h
  cases G <;> cases G' <;> cases o <;> cases o' <;>
    simp only [AffMap.eq?, componentEqual, CmpVal.truth] at h
  all_goals
    first
    | (split at h <;> try split at h) <;> simp_all [eq_comm]
    | simp_all [eq_comm]

/-- C57: a mesh equals itself; comparing a mesh with itself never raises. -/
theorem C57_reflexive {X : Type} [DecidableEq X] (m : EqMesh X (AffMap d K)) :
    meshEq AffMap.eq? m m = some true := by
  have hself : ∀ a : AffMap d K, a.eq? a = some true := by
    rintro ⟨G, o⟩
    cases G <;> cases o <;> simp [AffMap.eq?, componentEqual, CmpVal.truth]
  have htup : ∀ {α : Type} {eq : α → α → Option Bool}, (∀ a, eq a a = some true) →
      ∀ l : List α, tupleEq eq l l = some true := by
    intro α eq h l
    induction l with
    | nil => rfl
    | cons a l ih => rw [tupleEq, pyAnd_true]; exact ⟨h a, ih⟩
  have hfag : ∀ f : Fag (AffMap d K), fagEq AffMap.eq? f f = some true := by
    intro f
    cases f <;> simp [fagEq, pyAnd, hself]
  have hgrp : ∀ g : EqGroup X, groupEq g g = some true := by
    intro g; simp [groupEq, pyAnd, optionalArrayEqual_iff.2]
  simp only [meshEq, pyAnd_true, Option.some.injEq, beq_iff_eq, optionalArrayEqual_iff, true_and,
    htup hgrp]
  constructor
  · cases m.nodal <;> simp [slotEq]
  · cases m.facial <;> simp [slotEq, htup (htup hfag)]

end

/-! ### Examples -/

/-- The affine maps of the code meet the hypothesis of `C57_equal_iff`. -/
example : EqExact (AffMap.eq? (d := 3) (K := ℚ)) := affEq_exact

/-- A mesh of two intervals with a periodic connection. -/
def exEqMesh (a : AffMap 2 ℚ) (faceId : Nat) (facial : Bool) : EqMesh ℚ (AffMap 2 ℚ) :=
  ⟨0, some [[0, 1, 2], [0, 0, 0]], [⟨0, 1, some [[0, 1], [1, 2]], [[0, 1, 1, 2], [0, 0, 0, 0]], [[-1, 1]]⟩],
    4, 4, faceId, .missing,
    if facial then .data [[.interior 0 0 [⟨0, 0, 1, 1⟩] a]] else .missing, some true⟩

/-- The hypotheses of `C57_equal_iff` and `C57_defined_partial` are met by different meshes. -/
example : meshEq AffMap.eq? (exEqMesh ⟨none, some ![2, 0]⟩ 1 true)
    (exEqMesh ⟨none, some ![3, 0]⟩ 1 true) = some false := by
  have : (![2, 0] : Fin 2 → ℚ) ≠ ![3, 0] := by
    intro h; have := congrFun h 0; norm_num at this
  simp [meshEq, exEqMesh, pyAnd, tupleEq, groupEq, optionalArrayEqual, slotEq, fagEq, AffMap.eq?,
    componentEqual, CmpVal.truth, this]

/-- C57 fails for the type of face numbers, which is not compared. -/
theorem C57_face_type_counterexample : ∃ m m' : EqMesh ℚ (AffMap 2 ℚ), m.faceId ≠ m'.faceId ∧
    meshEq AffMap.eq? m m' = some true :=
  ⟨exEqMesh ⟨none, none⟩ 1 true, exEqMesh ⟨none, none⟩ 2 true, by simp [exEqMesh], by
    simp [meshEq, exEqMesh, pyAnd, tupleEq, groupEq, optionalArrayEqual, slotEq, fagEq, AffMap.eq?,
      componentEqual, CmpVal.truth]⟩

/-- C57 fails when the affine maps have different parts: comparing a mesh glued to itself by a
translation with one glued by the identity raises. -/
theorem C57_raises_counterexample : ∃ m m' : EqMesh ℚ (AffMap 2 ℚ), meshEq AffMap.eq? m m' = none :=
  ⟨exEqMesh ⟨none, some ![2, 0]⟩ 1 true, exEqMesh ⟨none, none⟩ 1 true, by
    simp [meshEq, exEqMesh, pyAnd, tupleEq, groupEq, optionalArrayEqual, slotEq, fagEq, AffMap.eq?,
      componentEqual, CmpVal.truth]⟩

/-- C57 fails for adjacency that is computed on demand (as documented): a mesh whose adjacency has
been asked for differs from one whose adjacency has not. -/
theorem C57_history_counterexample : ∃ m m' : EqMesh ℚ (AffMap 2 ℚ),
    m' = { m with facial := m'.facial } ∧ m.facial = .missing ∧ m.conforming = some true ∧
    meshEq AffMap.eq? m m' = some false :=
  ⟨exEqMesh ⟨none, none⟩ 1 false, exEqMesh ⟨none, none⟩ 1 true, rfl, rfl, rfl, by
    simp [meshEq, exEqMesh, pyAnd, tupleEq, groupEq, optionalArrayEqual, slotEq]⟩

end Meshmode
