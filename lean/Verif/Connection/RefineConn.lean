import Verif.Connection.SameMesh
import Verif.Refine.Elements
import Verif.Distributed.Comm

/-!
# Connections from a mesh to its refinement (C63)

`map_unit_nodes_to_children` (meshmode/mesh/refinement/utils.py:87-128) and
`make_refinement_connection` (meshmode/discretization/connection/refinement.py:38-171).

Points of the reference element are lists of coordinates, arithmetic is exact, and
`find_point_to_point_mapping` and `mp.resampling_matrix` are parameters as for C62.  Tessellations without
`el_tess_info` (which no refiner makes) and discretizations without unit nodes are not modelled.
-/
namespace Meshmode

open Finset

/-! ## Model -/

/-- What `map_unit_nodes_to_children` dispatches on. Code: meshmode/mesh/refinement/utils.py:87-128. -/
inductive ChildShape where
  | simplex
  | tensor (dim : Nat)
  | other
  deriving DecidableEq, Repr

/-- Exceptions. Code: meshmode/discretization/connection/refinement.py:87, 145-160,
meshmode/mesh/refinement/utils.py:98-128. -/
inductive RefErr where
  /-- `ValueError`: another mesh than the one that was refined -/
  | meshes
  /-- `ValueError` of `zip(strict=True)` -/
  | groups
  /-- failed assertion on the number of children -/
  | assertion
  /-- `NotImplementedError` -/
  | notImplemented
  /-- `IndexError`, or `ValueError` of `dot` -/
  | shape
  deriving DecidableEq, Repr

/-- `GroupRefinementRecord`, meshmode/mesh/refinement/tessellate.py:94-107: children and reference
vertices of the tessellation, and `element_mapping`. -/
structure RefRecord where
  children : List (List Nat)
  refVerts : List (List Nat)
  mapping : List (List Nat)
  deriving DecidableEq, Repr

/-- The numbers of the vertices of a child which span it from its first vertex,
meshmode/mesh/refinement/utils.py:108 and 120-125. -/
def childAxes (shape : ChildShape) (child : List Nat) : Except RefErr (List Nat) :=
  match shape with
  | .simplex => .ok child.tail
  | .tensor dim =>
    match (List.range dim).mapM fun j => child[2 ^ j]? with
    | some axs => .ok axs
    | none => .error .shape
  | .other => .error .notImplemented

section
variable {K : Type} [Field K]

/-- `basis.dot((unit_nodes + 1.0) / 2.0) + origin - 1.0` for one unit node,
meshmode/mesh/refinement/utils.py:107-111, 124-128. -/
def childPoint (origin : List Nat) (axs : List (List Nat)) (x : List K) : List K :=
  (List.range origin.length).map fun r =>
    ((axs.zip x).map fun q => (((q.1.getD r 0 : Nat) : K) - ((origin.getD r 0 : Nat) : K)) *
      ((q.2 + 1) / 2)).sum + ((origin.getD r 0 : Nat) : K) - 1

/-- The unit nodes of one child, meshmode/mesh/refinement/utils.py:106-111, 122-128. -/
def childNodes (shape : ChildShape) (refVerts : List (List Nat)) (child : List Nat)
    (nodes : List (List K)) : Except RefErr (List (List K)) :=
  match childAxes shape child with
  | .error e => .error e
  | .ok nrs =>
    match child.head?.bind (refVerts[·]?), nrs.mapM (refVerts[·]?) with
    | some origin, some axs =>
      if nodes.all fun x => axs.length == x.length then .ok (nodes.map (childPoint origin axs))
      else .error .shape
    | _, _ => .error .shape

/-- All children, in order. (Plumbing for `childNodes`.)
Code: meshmode/mesh/refinement/utils.py:106, 122. -/
def allChildNodes (shape : ChildShape) (refVerts : List (List Nat)) (nodes : List (List K)) :
    List (List Nat) → Except RefErr (List (List (List K)))
  | [] => .ok []
  | c :: cs =>
    match childNodes shape refVerts c nodes, allChildNodes shape refVerts nodes cs with
    | .ok u, .ok us => .ok (u :: us)
    | .error e, _ => .error e
    | _, .error e => .error e

/-- `map_unit_nodes_to_children`, meshmode/mesh/refinement/utils.py:87-128. -/
def mapNodesToChildren (shape : ChildShape) (refVerts : List (List Nat)) (nodes : List (List K))
    (children : List (List Nat)) : Except RefErr (List (List (List K))) :=
  if shape = .other then .error .notImplemented else allChildNodes shape refVerts nodes children

/-- The batches of the bins that are not empty,
meshmode/discretization/connection/refinement.py:99-115. -/
def binBatches (igrp : Nat) (bins : List (List (Nat × Nat))) (nodes : List (List (List K))) :
    List (Batch (List (List K))) :=
  (bins.zip nodes).filterMap fun p =>
    if p.1.isEmpty then none
    else some ⟨igrp, p.1.map Prod.fst, p.1.map Prod.snd, p.2, none⟩

/-- `_build_interpolation_batches_for_group`,
meshmode/discretization/connection/refinement.py:38-115. -/
def refineBatches (igrp : Nat) (shape : ChildShape) (fineNodes : List (List K)) (record : RefRecord) :
    Except RefErr (List (Batch (List (List K)))) :=
  match refinementBins record.children.length record.mapping with
  | none => .error .assertion
  | some bins =>
    match mapNodesToChildren shape record.refVerts fineNodes record.children with
    | .error e => .error e
    | .ok mapped => .ok (binBatches igrp bins (fineNodes :: mapped))

/-- The loop over the groups, meshmode/discretization/connection/refinement.py:155-165. -/
def refineConnGroups : Nat → List (SGroup K (List K)) → List (SGroup K (List K) × ChildShape) →
    List RefRecord → Except RefErr (List (List (Batch (List (List K)))))
  | _, [], [], [] => .ok []
  | igrp, _ :: cs, f :: fs, r :: rs =>
    match refineBatches igrp f.2 f.1.nodes r with
    | .error e => .error e
    | .ok bs =>
      match refineConnGroups (igrp + 1) cs fs rs with
      | .error e => .error e
      | .ok gs => .ok (bs :: gs)
  | _, _, _, _ => .error .groups

/-- `make_refinement_connection`, meshmode/discretization/connection/refinement.py:121-171.
`sameMesh`: `coarse_discr.mesh == refiner.get_previous_mesh()`; `fine`: groups of the discretization of
the fine mesh, with the kind of their mesh element groups. -/
def makeRefinementConn (sameMesh : Bool) (coarse : List (SGroup K (List K)))
    (fine : List (SGroup K (List K) × ChildShape)) (records : List RefRecord) :
    Except RefErr (SameConn K (List K)) :=
  if sameMesh then
    (refineConnGroups 0 coarse fine records).map fun gs =>
      .direct coarse (fine.map Prod.fst) gs true
  else .error .meshes

/-! ## Specification -/

/-- A point on the line through two points. (Specification or proof vocabulary, no code.) -/
def linePoint (s : K) (x y : List K) : List K := List.zipWith (fun a b => (1 - s) * a + s * b) x y

/-- The affine map which takes the corner `(-1, ..., -1)` of the reference element to `origin - 1` and the
ends of its edges at this corner to `axs - 1`. (Specification or proof vocabulary, no code.) -/
structure ChildMap (origin : List Nat) (axs : List (List Nat)) (T : List K → List K) : Prop where
  affine : ∀ (s : K) (x y : List K), x.length = axs.length → y.length = axs.length →
    T (linePoint s x y) = linePoint s (T x) (T y)
  corner : T (List.replicate axs.length (-1)) = origin.map fun n : Nat => (n : K) - 1
  edge : ∀ (j : Nat) v, axs[j]? = some v →
    T ((List.replicate axs.length (-1)).set j 1) = v.map fun n : Nat => (n : K) - 1

/-- The corners of a child, by number. (Specification or proof vocabulary, no code.) -/
def ChildCorners (shape : ChildShape) (refVerts : List (List Nat)) (child : List Nat)
    (origin : List Nat) (axs : List (List Nat)) : Prop :=
  (∃ n, child[0]? = some n ∧ refVerts[n]? = some origin) ∧
  match shape with
  | .simplex => axs.length + 1 = child.length ∧
      ∀ (j : Nat) v, axs[j]? = some v → ∃ n, child[j + 1]? = some n ∧ refVerts[n]? = some v
  | .tensor dim => axs.length = dim ∧
      ∀ (j : Nat) v, axs[j]? = some v → ∃ n, child[2 ^ j]? = some n ∧ refVerts[n]? = some v
  | .other => False

/-! ## Lemmas -/

theorem ChildCorners.unique {shape : ChildShape} {refVerts : List (List Nat)} {child : List Nat}
    {origin origin' : List Nat} {axs axs' : List (List Nat)}
    (h : ChildCorners shape refVerts child origin axs)
    (h' : ChildCorners shape refVerts child origin' axs') : origin = origin' ∧ axs = axs' := by
  obtain ⟨⟨n, h1, h2⟩, h3⟩ := h
  obtain ⟨⟨n', h1', h2'⟩, h3'⟩ := h'
  rw [h1] at h1'
  cases h1'
  rw [h2] at h2'
  cases h2'
  refine ⟨rfl, ?_⟩
  have key : ∀ nr : Nat → Nat, axs.length = axs'.length →
      (∀ (j : Nat) v, axs[j]? = some v → ∃ n, child[nr j]? = some n ∧ refVerts[n]? = some v) →
      (∀ (j : Nat) v, axs'[j]? = some v → ∃ n, child[nr j]? = some n ∧ refVerts[n]? = some v) →
      axs = axs' := by
    intro nr hl ha hb
    apply List.ext_getElem hl
    intro j hj hj'
    obtain ⟨m, e1, e2⟩ := ha j _ (List.getElem?_eq_getElem hj)
    obtain ⟨m', e1', e2'⟩ := hb j _ (List.getElem?_eq_getElem hj')
    rw [e1] at e1'
    cases e1'
    rw [e2] at e2'
    simpa using e2'
  cases shape with
  | simplex => exact key (· + 1) (by have := h3.1; have := h3'.1; omega) h3.2 h3'.2
  | tensor dim => exact key (2 ^ ·) (by rw [h3.1, h3'.1]) h3.2 h3'.2
  | other => exact absurd h3 id

theorem zip_map_sum {R α β : Type} [AddCommMonoid R] (f : α → β → R) (da : α) (db : β) {l : List α}
    {l' : List β} (h : l.length = l'.length) :
    ((l.zip l').map fun q => f q.1 q.2).sum =
      ∑ j ∈ range l.length, f (l.getD j da) (l'.getD j db) := by
  induction l generalizing l' with
  | nil => simp
  | cons a l ih =>
    cases l' with
    | nil => simp at h
    | cons b l' =>
      rw [List.zip_cons_cons, List.map_cons, List.sum_cons, List.length_cons, Finset.sum_range_succ',
        ih (by simpa using h), add_comm]
      simp

theorem childPoint_coord (origin : List Nat) (axs : List (List Nat)) (x : List K)
    (h : axs.length = x.length) : childPoint origin axs x = (List.range origin.length).map fun r =>
      ∑ j ∈ range axs.length, ((((axs.getD j []).getD r 0 : Nat) : K) - ((origin.getD r 0 : Nat) : K)) *
        ((x.getD j 0 + 1) / 2) + ((origin.getD r 0 : Nat) : K) - 1 := by
  unfold childPoint
  apply List.map_congr_left
  intro r _
  rw [zip_map_sum (f := fun (a : List Nat) (b : K) => (((a.getD r 0 : Nat) : K) -
    ((origin.getD r 0 : Nat) : K)) * ((b + 1) / 2)) [] 0 h]

theorem childPoint_spec [CharZero K] {origin : List Nat} {axs : List (List Nat)}
    (hl : ∀ v ∈ axs, v.length = origin.length) : ChildMap (K := K) origin axs (childPoint origin axs) := by
  refine ⟨?_, ?_, ?_⟩
  · intro s x y hx hy
    have hxy : (linePoint s x y).length = axs.length := by simp [linePoint, hx, hy]
    rw [childPoint_coord _ _ _ hxy.symm, childPoint_coord _ _ _ hx.symm, childPoint_coord _ _ _ hy.symm]
    unfold linePoint
    rw [List.zipWith_map_left, List.zipWith_map_right, List.zipWith_self]
    apply List.map_congr_left
    intro r _
    have : ∀ j ∈ range axs.length, (List.zipWith (fun a b => (1 - s) * a + s * b) x y).getD j 0 =
        (1 - s) * x.getD j 0 + s * y.getD j 0 := by
      intro j hj
      simp only [Finset.mem_range] at hj
      simp [hx, hy, hj]
    rw [Finset.sum_congr rfl fun j hj => by rw [this j hj]]
    have e : ∀ j, ((((axs.getD j []).getD r 0 : Nat) : K) - ((origin.getD r 0 : Nat) : K)) *
        (((1 - s) * x.getD j 0 + s * y.getD j 0 + 1) / 2) =
        (1 - s) * (((((axs.getD j []).getD r 0 : Nat) : K) - ((origin.getD r 0 : Nat) : K)) *
          ((x.getD j 0 + 1) / 2)) +
        s * (((((axs.getD j []).getD r 0 : Nat) : K) - ((origin.getD r 0 : Nat) : K)) *
          ((y.getD j 0 + 1) / 2)) := fun j => by ring
    simp only [e]
    rw [Finset.sum_add_distrib, ← Finset.mul_sum, ← Finset.mul_sum]
    ring
  · rw [childPoint_coord _ _ _ (by simp)]
    apply List.ext_getElem
    · simp
    · intro r h1 h2
      simp only [List.length_map, List.length_range] at h1
      simp only [List.getElem_map, List.getElem_range]
      rw [Finset.sum_eq_zero]
      · simp [h1]
      · intro j hj
        simp only [Finset.mem_range] at hj
        simp [hj]
  · intro j v hj
    have hjl := (List.getElem?_eq_some_iff.1 hj).1
    have hvl := hl v (List.mem_of_getElem? hj)
    rw [childPoint_coord _ _ _ (by simp)]
    apply List.ext_getElem
    · simp [hvl]
    · intro r h1 h2
      simp only [List.length_map, List.length_range] at h1
      simp only [List.getElem_map, List.getElem_range]
      rw [Finset.sum_eq_single j]
      · rw [List.getD_eq_getElem?_getD (l := axs), hj]
        simp [hjl, h1, hvl]
        ring
      · intro k hk hne
        simp only [Finset.mem_range] at hk
        simp [hk, Ne.symm hne]
      · intro hn
        simp at hn
        omega

/-- The nodes of one child are the images of the unit nodes under its map. -/
theorem childNodes_ok [CharZero K] {shape : ChildShape} {refVerts : List (List Nat)} {d : Nat}
    (hd : ∀ v ∈ refVerts, v.length = d) {child : List Nat} {nodes us : List (List K)}
    (h : childNodes shape refVerts child nodes = .ok us) :
    ∃ origin axs, ChildCorners shape refVerts child origin axs ∧
      (∀ x ∈ nodes, x.length = axs.length) ∧
      ChildMap (K := K) origin axs (childPoint origin axs) ∧ us = nodes.map (childPoint origin axs) := by
  unfold childNodes at h
  split at h
  · simp at h
  · rename_i nrs hnrs
    split at h
    · rename_i origin axs ho ha
      split at h
      · rename_i hall
        simp only [Except.ok.injEq] at h
        obtain ⟨hal, hag⟩ := mapM_getElem?_some ha
        have hol : origin.length = d := by
          obtain ⟨n, _, hn⟩ := Option.bind_eq_some_iff.1 ho
          exact hd _ (List.mem_of_getElem? hn)
        refine ⟨origin, axs, ⟨?_, ?_⟩, ?_, ?_, h.symm⟩
        · obtain ⟨n, hn, hn'⟩ := Option.bind_eq_some_iff.1 ho
          exact ⟨n, by rw [← List.head?_eq_getElem?, hn], hn'⟩
        · have hget : ∀ (j : Nat) v, axs[j]? = some v → ∃ n, nrs[j]? = some n ∧ refVerts[n]? = some v := by
            intro j v hv
            have hj := (List.getElem?_eq_some_iff.1 hv).1
            have hn : nrs[j]? = some (nrs[j]'(by omega)) := List.getElem?_eq_getElem (by omega)
            obtain ⟨v', hv', hr⟩ := hag j _ hn
            rw [hv] at hv'
            cases hv'
            exact ⟨_, hn, hr⟩
          cases shape with
          | simplex =>
            simp only [childAxes, Except.ok.injEq] at hnrs
            subst hnrs
            have hne : child ≠ [] := by
              rintro rfl
              simp at ho
            have : child.length ≠ 0 := by simpa using hne
            refine ⟨by simp at hal; omega, ?_⟩
            intro j v hv
            obtain ⟨n, hn, hr⟩ := hget j v hv
            exact ⟨n, by simpa using hn, hr⟩
          | tensor dim =>
            simp only [childAxes] at hnrs
            split at hnrs
            · rename_i axs' hax
              simp only [Except.ok.injEq] at hnrs
              subst hnrs
              obtain ⟨h1, h2⟩ := mapM_getElem?_some hax
              simp only [List.length_range] at h1
              refine ⟨by omega, ?_⟩
              intro j v hv
              obtain ⟨n, hn, hr⟩ := hget j v hv
              have hj := (List.getElem?_eq_some_iff.1 hv).1
              obtain ⟨n', hn', he⟩ := h2 j j (by rw [List.getElem?_range (by omega)])
              rw [hn] at hn'
              cases hn'
              exact ⟨n, he, hr⟩
            · simp at hnrs
          | other => simp [childAxes] at hnrs
        · intro x hx
          have := List.all_eq_true.1 hall x hx
          simp only [beq_iff_eq] at this
          exact this.symm
        · apply childPoint_spec
          intro v hv
          obtain ⟨j, hj⟩ := List.mem_iff_getElem?.1 hv
          have hjl := (List.getElem?_eq_some_iff.1 hj).1
          obtain ⟨v', hv', hr⟩ := hag j _ (List.getElem?_eq_getElem (by omega))
          rw [hj] at hv'
          cases hv'
          rw [hd v (List.mem_of_getElem? hr), hol]
      · simp at h
    · simp at h

theorem childNodes_length {shape : ChildShape} {refVerts : List (List Nat)} {child : List Nat}
    {nodes us : List (List K)} (h : childNodes shape refVerts child nodes = .ok us) :
    us.length = nodes.length := by
  unfold childNodes at h
  split at h
  · simp at h
  · split at h
    · split at h
      · simp only [Except.ok.injEq] at h
        simp [← h]
      · simp at h
    · simp at h

theorem allChildNodes_ok {shape : ChildShape} {refVerts : List (List Nat)} {nodes : List (List K)}
    {children : List (List Nat)} {mapped : List (List (List K))}
    (h : allChildNodes shape refVerts nodes children = .ok mapped) :
    mapped.length = children.length ∧ ∀ (j : Nat) c, children[j]? = some c →
      ∃ us, mapped[j]? = some us ∧ childNodes shape refVerts c nodes = .ok us := by
  induction children generalizing mapped with
  | nil =>
    simp only [allChildNodes, Except.ok.injEq] at h
    subst h
    simp
  | cons a l ih =>
    simp only [allChildNodes] at h
    split at h
    · rename_i u us h1 h2
      simp only [Except.ok.injEq] at h
      subst h
      obtain ⟨h3, h4⟩ := ih h2
      refine ⟨by simp [h3], ?_⟩
      intro j c hc
      cases j with
      | zero =>
        simp only [List.getElem?_cons_zero, Option.some.injEq] at hc
        subst hc
        exact ⟨u, rfl, h1⟩
      | succ j => simpa using h4 j c (by simpa using hc)
    · simp at h
    · simp at h

theorem mapNodes_ok {shape : ChildShape} {refVerts : List (List Nat)} {nodes : List (List K)}
    {children : List (List Nat)} {mapped : List (List (List K))}
    (h : mapNodesToChildren shape refVerts nodes children = .ok mapped) :
    mapped.length = children.length ∧ ∀ (j : Nat) c, children[j]? = some c →
      ∃ us, mapped[j]? = some us ∧ childNodes shape refVerts c nodes = .ok us := by
  unfold mapNodesToChildren at h
  split at h
  · simp at h
  · exact allChildNodes_ok h

omit [Field K] in
theorem binBatches_targets (igrp : Nat) {bins : List (List (Nat × Nat))} {nodes : List (List (List K))}
    (h : bins.length = nodes.length) :
    (binBatches igrp bins nodes).flatMap Batch.toEls = bins.flatten.map Prod.snd := by
  induction bins generalizing nodes with
  | nil => simp [binBatches]
  | cons l bins ih =>
    cases nodes with
    | nil => simp at h
    | cons u nodes =>
      have := ih (nodes := nodes) (by simpa using h)
      unfold binBatches at this ⊢
      rw [List.zip_cons_cons, List.filterMap_cons, List.flatten_cons, List.map_append, ← this]
      cases l with
      | nil => simp
      | cons a l => simp

omit [Field K] in
theorem mem_binBatches {igrp : Nat} {bins : List (List (Nat × Nat))} {nodes : List (List (List K))}
    {b : Batch (List (List K))} : b ∈ binBatches igrp bins nodes ↔
      ∃ (i : Nat) (l : List (Nat × Nat)) (u : List (List K)), bins[i]? = some l ∧ nodes[i]? = some u ∧ l ≠ [] ∧ b = ⟨igrp, l.map Prod.fst, l.map Prod.snd, u, none⟩ := by
  unfold binBatches
  rw [List.mem_filterMap]
  constructor
  · rintro ⟨⟨l, u⟩, hp, h⟩
    obtain ⟨i, hi⟩ := List.mem_iff_getElem?.1 hp
    obtain ⟨h1, h2⟩ := (List.getElem?_zip_eq_some (z := (l, u))).1 hi
    simp only at h
    split at h
    · simp at h
    · rename_i hne
      simp only [Option.some.injEq] at h
      exact ⟨i, l, u, h1, h2, by simpa using hne, h.symm⟩
  · rintro ⟨i, l, u, h1, h2, hne, rfl⟩
    refine ⟨(l, u), List.mem_iff_getElem?.2 ⟨i, (List.getElem?_zip_eq_some (z := (l, u))).2 ⟨h1, h2⟩⟩, ?_⟩
    simp [hne]

omit [Field K] in
theorem pair_source {l : List (Nat × Nat)} (hn : (l.map Prod.snd).Nodup) {e k : Nat} (h : (e, k) ∈ l)
    (igrp : Nat) (u : List (List K)) (f : Option Nat) :
    (⟨igrp, l.map Prod.fst, l.map Prod.snd, u, f⟩ : Batch (List (List K))).source k = some e := by
  unfold Batch.source
  have hz : (l.map Prod.snd).zip (l.map Prod.fst) = l.map fun p => (p.2, p.1) := by
    rw [List.zip_map']
  simp only [hz]
  apply lookup_of_nodup
  · rw [List.map_reverse, List.nodup_reverse, List.map_map]
    exact hn
  · simpa using h

/-- What the batches of a group are. -/
theorem refineBatches_ok {igrp : Nat} {shape : ChildShape} {nodes : List (List K)} {r : RefRecord}
    {bs : List (Batch (List (List K)))} (h : refineBatches igrp shape nodes r = .ok bs)
    (hn : r.mapping.flatten.Nodup) :
    (∀ c ∈ r.mapping, c.length = 1 ∨ c.length = r.children.length) ∧
    (bs.flatMap Batch.toEls).Perm r.mapping.flatten ∧
    (∀ b ∈ bs, b.fromGroup = igrp ∧ (∀ f ∈ b.fromEls, f < r.mapping.length) ∧
      b.nodes.length = nodes.length) ∧
    ∃ mapped, mapNodesToChildren shape r.refVerts nodes r.children = .ok mapped ∧
      ∀ (e : Nat) cs (j k : Nat), r.mapping[e]? = some cs → cs[j]? = some k → ∃ b ∈ bs, b.source k = some e ∧
        (nodes :: mapped)[if cs.length = 1 then 0 else j + 1]? = some b.nodes := by
  have hlen : ∀ c ∈ r.mapping, c.length = 1 ∨ c.length = r.children.length := by
    intro c hc
    unfold refineBatches at h
    split at h
    · simp at h
    · rename_i bins hb
      unfold refinementBins at hb
      split at hb
      · rename_i hall
        simpa using List.all_eq_true.1 hall c hc
      · simp at hb
  refine ⟨hlen, ?_⟩
  obtain ⟨bins, hb, hbl, hperm, hmem⟩ := refinementBins_spec hlen
  unfold refineBatches at h
  rw [hb] at h
  simp only at h
  split at h
  · simp at h
  · rename_i mapped hm
    simp only [Except.ok.injEq] at h
    subst h
    have hml := (mapNodes_ok hm).1
    have htgt : (binBatches igrp bins (nodes :: mapped)).flatMap Batch.toEls =
        bins.flatten.map Prod.snd := binBatches_targets igrp (by simp [hbl, hml])
    refine ⟨htgt ▸ hperm, ?_, mapped, hm, ?_⟩
    · intro b hbm
      obtain ⟨i, l, u, h1, h2, h3, rfl⟩ := mem_binBatches.1 hbm
      refine ⟨rfl, ?_, ?_⟩
      · intro f hf
        obtain ⟨⟨e, k⟩, hek, rfl⟩ := List.mem_map.1 hf
        obtain ⟨c, hc, _⟩ := (hmem i l h1 e k).1 hek
        exact (List.getElem?_eq_some_iff.1 hc).1
      · cases i with
        | zero =>
          simp only [List.getElem?_cons_zero, Option.some.injEq] at h2
          rw [h2]
        | succ i =>
          simp only [List.getElem?_cons_succ] at h2
          have hil := (List.getElem?_eq_some_iff.1 h2).1
          obtain ⟨us, h3, h4⟩ := (mapNodes_ok hm).2 i _ (List.getElem?_eq_getElem (by omega))
          rw [h2] at h3
          cases h3
          exact childNodes_length h4
    · intro e cs j k he hj
      have hc := hlen cs (List.mem_of_getElem? he)
      have hjl := (List.getElem?_eq_some_iff.1 hj).1
      have hi : (if cs.length = 1 then 0 else j + 1) < bins.length := by
        split <;> omega
      have hl := List.getElem?_eq_getElem hi
      have hek : (e, k) ∈ bins[if cs.length = 1 then 0 else j + 1] := by
        refine (hmem _ _ hl e k).2 ⟨cs, he, ?_⟩
        by_cases h1 : cs.length = 1
        · left
          have : j = 0 := by omega
          subst this
          exact ⟨h1, by simp [h1], hj⟩
        · right
          exact ⟨h1, by simp [h1], by simpa [h1] using hj⟩
      have hu : (if cs.length = 1 then 0 else j + 1) < (nodes :: mapped).length := by
        simp only [List.length_cons]
        omega
      have hu' := List.getElem?_eq_getElem hu
      have hnod : ((bins[if cs.length = 1 then 0 else j + 1]).map Prod.snd).Nodup := by
        have h1 : (bins.flatten.map Prod.snd).Nodup := hperm.nodup_iff.2 hn
        rw [List.map_flatten] at h1
        exact (List.nodup_flatten.1 h1).1 _ (List.mem_map_of_mem (List.getElem_mem hi))
      refine ⟨_, mem_binBatches.2 ⟨_, _, _, hl, hu', List.ne_nil_of_mem hek, rfl⟩, pair_source hnod hek _ _ _, hu'⟩

theorem refineConnGroups_ok {igrp : Nat} {cs : List (SGroup K (List K))}
    {fs : List (SGroup K (List K) × ChildShape)} {rs : List RefRecord}
    {gs : List (List (Batch (List (List K))))} :
    refineConnGroups igrp cs fs rs = .ok gs ↔
    cs.length = fs.length ∧ rs.length = fs.length ∧ gs.length = fs.length ∧
    ∀ (t : Nat) f r, fs[t]? = some f → rs[t]? = some r → ∃ bs, gs[t]? = some bs ∧
      refineBatches (igrp + t) f.2 f.1.nodes r = .ok bs := by
  induction cs generalizing igrp fs rs gs with
  | nil =>
    cases fs with
    | nil =>
      cases rs with
      | nil =>
        simp only [refineConnGroups, Except.ok.injEq]
        constructor
        · rintro rfl
          simp
        · rintro ⟨_, _, h, _⟩
          exact (List.length_eq_zero_iff.1 h).symm
      | cons r rs => simp [refineConnGroups]
    | cons f fs => cases rs <;> simp [refineConnGroups]
  | cons c cs ih =>
    cases fs with
    | nil => cases rs <;> simp [refineConnGroups]
    | cons f fs =>
      cases rs with
      | nil => simp [refineConnGroups]
      | cons r rs =>
        simp only [refineConnGroups]
        cases hb : refineBatches igrp f.2 f.1.nodes r with
        | error e =>
          simp only [reduceCtorEq, false_iff]
          rintro ⟨_, _, _, h⟩
          obtain ⟨bs, _, h2⟩ := h 0 f r rfl rfl
          rw [Nat.add_zero, hb] at h2
          simp at h2
        | ok bs =>
          simp only
          cases hg : refineConnGroups (igrp + 1) cs fs rs with
          | error e =>
            simp only [reduceCtorEq, false_iff]
            rintro ⟨h1, h2, h3, h⟩
            cases gs with
            | nil => simp at h3
            | cons g gs =>
              have : refineConnGroups (igrp + 1) cs fs rs = .ok gs := by
                rw [ih]
                refine ⟨by simpa using h1, by simpa using h2, by simpa using h3, ?_⟩
                intro t f' r' hf hr
                obtain ⟨bs', h4, h5⟩ := h (t + 1) f' r' (by simpa using hf) (by simpa using hr)
                exact ⟨bs', by simpa using h4, by rw [← h5]; congr 1; omega⟩
              rw [hg] at this
              simp at this
          | ok gs' =>
            simp only [Except.ok.injEq]
            obtain ⟨h1, h2, h3, h4⟩ := (ih (gs := gs')).1 hg
            constructor
            · rintro rfl
              refine ⟨by simp [h1], by simp [h2], by simp [h3], ?_⟩
              intro t f' r' hf hr
              cases t with
              | zero =>
                simp only [List.getElem?_cons_zero, Option.some.injEq] at hf hr
                subst hf hr
                exact ⟨bs, rfl, hb⟩
              | succ t =>
                obtain ⟨bs', h5, h6⟩ := h4 t f' r' (by simpa using hf) (by simpa using hr)
                exact ⟨bs', by simpa using h5, by rw [← h6]; congr 1; omega⟩
            · rintro ⟨_, _, h5, h6⟩
              cases gs with
              | nil => simp at h5
              | cons g gs =>
                have : refineConnGroups (igrp + 1) cs fs rs = .ok gs := by
                  rw [ih]
                  refine ⟨h1, h2, by simpa using h5, ?_⟩
                  intro t f' r' hf hr
                  obtain ⟨bs', h7, h8⟩ := h6 (t + 1) f' r' (by simpa using hf) (by simpa using hr)
                  exact ⟨bs', by simpa using h7, by rw [← h8]; congr 1; omega⟩
                rw [hg] at this
                simp only [Except.ok.injEq] at this
                obtain ⟨bs', h7, h8⟩ := h6 0 f r rfl rfl
                rw [Nat.add_zero, hb] at h8
                simp only [Except.ok.injEq] at h8
                simp only [List.getElem?_cons_zero, Option.some.injEq] at h7
                rw [this, h8, h7]

/-- If each target is in one batch, only this batch counts. -/
theorem sum_one_batch {U R : Type} [CommRing R] {fromD : List (DGroup R U)} {ary : DofArr R}
    {bs : List (Batch U)} (hn : (bs.flatMap Batch.toEls).Nodup) {b : Batch U} (hb : b ∈ bs) {k : Nat}
    (hk : k ∈ b.toEls) (i : Nat) :
    (bs.map fun b => batchEval fromD ary b k i).sum = batchEval fromD ary b k i := by
  have hz : ∀ b' : Batch U, k ∉ b'.toEls → batchEval fromD ary b' k i = 0 := by
    intro b' hb'
    unfold batchEval
    cases hs : b'.source k with
    | none => rfl
    | some f => exact absurd (batch_source_mem hs).1 hb'
  induction bs with
  | nil => simp at hb
  | cons a bs ih =>
    rw [List.flatMap_cons, List.nodup_append] at hn
    rw [List.map_cons, List.sum_cons]
    rcases List.mem_cons.1 hb with rfl | hb'
    · rw [List.sum_eq_zero, add_zero]
      intro y hy
      obtain ⟨b', hb', rfl⟩ := List.mem_map.1 hy
      exact hz b' fun h => hn.2.2 k hk k (List.mem_flatMap.2 ⟨b', hb', h⟩) rfl
    · rw [ih hn.2.1 hb', hz a, zero_add]
      exact fun h => hn.2.2 k h k (List.mem_flatMap.2 ⟨b, hb', hk⟩) rfl

/-- When the nodes of a child can be computed. -/
theorem childNodes_defined {shape : ChildShape} {refVerts : List (List Nat)} {child : List Nat}
    {nodes : List (List K)} : (∃ us, childNodes shape refVerts child nodes = .ok us) ↔
      ∃ origin axs, ChildCorners shape refVerts child origin axs ∧ ∀ x ∈ nodes, x.length = axs.length := by
  constructor
  · rintro ⟨us, h⟩
    unfold childNodes at h
    split at h
    · simp at h
    · rename_i nrs hnrs
      split at h
      · rename_i origin axs ho ha
        split at h
        · rename_i hall
          obtain ⟨n, hn, hn'⟩ := Option.bind_eq_some_iff.1 ho
          obtain ⟨hal, hag⟩ := mapM_getElem?_some ha
          have hget : ∀ (j : Nat) v, axs[j]? = some v → ∃ n, nrs[j]? = some n ∧ refVerts[n]? = some v := by
            intro j v hv
            have hj := (List.getElem?_eq_some_iff.1 hv).1
            have hn : nrs[j]? = some (nrs[j]'(by omega)) := List.getElem?_eq_getElem (by omega)
            obtain ⟨v', hv', hr⟩ := hag j _ hn
            rw [hv] at hv'
            cases hv'
            exact ⟨_, hn, hr⟩
          refine ⟨origin, axs, ⟨⟨n, by rw [← List.head?_eq_getElem?, hn], hn'⟩, ?_⟩, ?_⟩
          · cases shape with
            | simplex =>
              simp only [childAxes, Except.ok.injEq] at hnrs
              subst hnrs
              have hne : child ≠ [] := by
                rintro rfl
                simp at ho
              have : child.length ≠ 0 := by simpa using hne
              refine ⟨by simp at hal; omega, ?_⟩
              intro j v hv
              obtain ⟨n, hn, hr⟩ := hget j v hv
              exact ⟨n, by simpa using hn, hr⟩
            | tensor dim =>
              simp only [childAxes] at hnrs
              split at hnrs
              · rename_i axs' hax
                simp only [Except.ok.injEq] at hnrs
                subst hnrs
                obtain ⟨h1, h2⟩ := mapM_getElem?_some hax
                simp only [List.length_range] at h1
                refine ⟨by omega, ?_⟩
                intro j v hv
                obtain ⟨n, hn, hr⟩ := hget j v hv
                have hj := (List.getElem?_eq_some_iff.1 hv).1
                obtain ⟨n', hn', he⟩ := h2 j j (by rw [List.getElem?_range (by omega)])
                rw [hn] at hn'
                cases hn'
                exact ⟨n, he, hr⟩
              · simp at hnrs
            | other => simp [childAxes] at hnrs
          · intro x hx
            have := List.all_eq_true.1 hall x hx
            simp only [beq_iff_eq] at this
            exact this.symm
        · simp at h
      · simp at h
  · rintro ⟨origin, axs, ⟨⟨n, hn, hn'⟩, hax⟩, hx⟩
    have ho : child.head?.bind (refVerts[·]?) = some origin := by
      rw [List.head?_eq_getElem?, hn, Option.bind_some, hn']
    have hall : (nodes.all fun x => axs.length == x.length) = true := by
      rw [List.all_eq_true]
      intro x hx'
      simp [hx x hx']
    have key : ∀ (nrs : List Nat) (axs : List (List Nat)), nrs.length = axs.length →
        (∀ (j : Nat) v, axs[j]? = some v → ∃ n, nrs[j]? = some n ∧ refVerts[n]? = some v) →
        nrs.mapM (refVerts[·]?) = some axs := by
      intro nrs
      induction nrs with
      | nil =>
        intro axs hl _
        have : axs = [] := List.length_eq_zero_iff.1 hl.symm
        subst this
        rfl
      | cons a nrs ih =>
        intro axs hl hg
        cases axs with
        | nil => simp at hl
        | cons v axs =>
          obtain ⟨n, h1, h2⟩ := hg 0 v rfl
          simp only [List.getElem?_cons_zero, Option.some.injEq] at h1
          subst h1
          rw [List.mapM_cons, h2, ih axs (by simpa using hl)
            fun j v hv => by simpa using hg (j + 1) v (by simpa using hv)]
          rfl
    unfold childNodes
    cases shape with
    | simplex =>
      simp only at hax
      have hm := key child.tail axs (by simp; omega) fun j v hv => by
        obtain ⟨n, h1, h2⟩ := hax.2 j v hv
        exact ⟨n, by simpa using h1, h2⟩
      simp only [childAxes, ho, hm, hall, if_true]
      exact ⟨_, rfl⟩
    | tensor dim =>
      simp only at hax
      obtain ⟨hdim, hax⟩ := hax
      have hsome : ∃ nrs, ((List.range dim).mapM fun j => child[2 ^ j]?) = some nrs := by
        apply mapM_isSome_of
        intro j hj
        simp only [List.mem_range] at hj
        obtain ⟨n, h1, _⟩ := hax j _ (List.getElem?_eq_getElem (by omega))
        exact ⟨n, h1⟩
      obtain ⟨nrs, hnrs⟩ := hsome
      obtain ⟨h1, h2⟩ := mapM_getElem?_some hnrs
      simp only [List.length_range] at h1
      have hm := key nrs axs (by omega) fun j v hv => by
        obtain ⟨n, h3, h4⟩ := hax j v hv
        have hj := (List.getElem?_eq_some_iff.1 hv).1
        obtain ⟨n', hn', he⟩ := h2 j j (by rw [List.getElem?_range (by omega)])
        rw [h3] at he
        cases he
        exact ⟨n, hn', h4⟩
      simp only [childAxes, hnrs, ho, hm, hall, if_true]
      exact ⟨_, rfl⟩
    | other => exact absurd hax id

theorem allChildNodes_defined {shape : ChildShape} {refVerts : List (List Nat)} {nodes : List (List K)}
    {children : List (List Nat)} : (∃ mapped, allChildNodes shape refVerts nodes children = .ok mapped) ↔
      ∀ c ∈ children, ∃ us, childNodes shape refVerts c nodes = .ok us := by
  induction children with
  | nil => simp [allChildNodes]
  | cons a l ih =>
    rw [List.forall_mem_cons, ← ih]
    simp only [allChildNodes]
    cases childNodes shape refVerts a nodes with
    | error e => simp
    | ok u =>
      cases allChildNodes shape refVerts nodes l with
      | error e => simp
      | ok us => simp

theorem make_refine_direct {sameMesh : Bool} {coarse F T : List (SGroup K (List K))}
    {fine : List (SGroup K (List K) × ChildShape)} {records : List RefRecord}
    {gs : List (List (Batch (List (List K))))} {s : Bool}
    (h : makeRefinementConn sameMesh coarse fine records = .ok (.direct F T gs s)) :
    F = coarse ∧ T = fine.map Prod.fst ∧ refineConnGroups 0 coarse fine records = .ok gs := by
  unfold makeRefinementConn at h
  split at h
  · cases hs : refineConnGroups 0 coarse fine records with
    | error e => simp [hs, Except.map] at h
    | ok gs' =>
      simp only [hs, Except.map, Except.ok.injEq, SameConn.direct.injEq] at h
      obtain ⟨rfl, rfl, rfl, _⟩ := h
      exact ⟨rfl, rfl, rfl⟩
  · simp at h

/-! ## Properties -/

/-- C63: a discretization of another mesh is refused; otherwise there is a connection if and only if there
are as many groups and records, no element has a number of children that is neither one nor that of the
tessellation, the element type is known, and each child has the corners needed. -/
theorem C63_constructor (sameMesh : Bool) (coarse : List (SGroup K (List K)))
    (fine : List (SGroup K (List K) × ChildShape)) (records : List RefRecord) :
    (sameMesh = false → makeRefinementConn sameMesh coarse fine records = .error .meshes) ∧
    ((∃ c, makeRefinementConn sameMesh coarse fine records = .ok c) ↔
      sameMesh = true ∧ coarse.length = fine.length ∧ records.length = fine.length ∧
      ∀ (t : Nat) f r, fine[t]? = some f → records[t]? = some r →
        (∀ c ∈ r.mapping, c.length = 1 ∨ c.length = r.children.length) ∧ f.2 ≠ .other ∧
        ∀ child ∈ r.children, ∃ origin axs, ChildCorners f.2 r.refVerts child origin axs ∧
          ∀ x ∈ f.1.nodes, x.length = axs.length) := by
  refine ⟨fun h => by simp [makeRefinementConn, h], ?_⟩
  cases sameMesh with
  | false => simp [makeRefinementConn]
  | true =>
    have hone : ∀ (igrp : Nat) (f : SGroup K (List K) × ChildShape) (r : RefRecord),
        (∃ bs, refineBatches igrp f.2 f.1.nodes r = .ok bs) ↔
        (∀ c ∈ r.mapping, c.length = 1 ∨ c.length = r.children.length) ∧ f.2 ≠ .other ∧
        ∀ child ∈ r.children, ∃ origin axs, ChildCorners f.2 r.refVerts child origin axs ∧
          ∀ x ∈ f.1.nodes, x.length = axs.length := by
      intro igrp f r
      simp only [← childNodes_defined, ← allChildNodes_defined]
      unfold refineBatches refinementBins
      by_cases hall : (r.mapping.all fun m => m.length == 1 || m.length == r.children.length) = true
      · rw [if_pos hall]
        have : ∀ c ∈ r.mapping, c.length = 1 ∨ c.length = r.children.length := fun c hc => by
          simpa using List.all_eq_true.1 hall c hc
        simp only [mapNodesToChildren]
        by_cases ho : f.2 = .other
        · simp [ho]
        · rw [if_neg ho]
          cases allChildNodes f.2 r.refVerts f.1.nodes r.children with
          | error e => simp
          | ok m => simpa [ho] using this
      · rw [if_neg hall]
        simp only [reduceCtorEq, exists_false, false_iff]
        rintro ⟨h, _⟩
        apply hall
        rw [List.all_eq_true]
        intro c hc
        simpa using h c hc
    simp only [makeRefinementConn, if_true, true_and]
    constructor
    · rintro ⟨c, hc⟩
      cases hs : refineConnGroups 0 coarse fine records with
      | error e => simp [hs, Except.map] at hc
      | ok gs =>
        obtain ⟨h1, h2, _, h4⟩ := refineConnGroups_ok.1 hs
        refine ⟨h1, h2, ?_⟩
        intro t f r hf hr
        obtain ⟨bs, _, hbs⟩ := h4 t f r hf hr
        exact (hone _ f r).1 ⟨bs, hbs⟩
    · rintro ⟨h1, h2, h3⟩
      have : ∃ gs, refineConnGroups 0 coarse fine records = .ok gs := by
        have hget : ∀ t : Fin fine.length, ∃ bs, refineBatches (0 + t.1) (fine[t.1]).2 (fine[t.1]).1.nodes
            (records[t.1]'(by omega)) = .ok bs := fun t =>
          (hone _ _ _).2 (h3 t.1 _ _ (List.getElem?_eq_getElem t.2) (List.getElem?_eq_getElem (by omega)))
        choose B hB using hget
        refine ⟨List.ofFn B, refineConnGroups_ok.2 ⟨h1, h2, by simp, ?_⟩⟩
        intro t f r hf hr
        obtain ⟨ht, hf'⟩ := List.getElem?_eq_some_iff.1 hf
        obtain ⟨_, hr'⟩ := List.getElem?_eq_some_iff.1 hr
        refine ⟨B ⟨t, ht⟩, ?_, ?_⟩
        · rw [List.getElem?_eq_getElem (by simpa using ht), List.getElem_ofFn]
        · have := hB ⟨t, ht⟩
          simp only [hf', hr'] at this
          exact this
      obtain ⟨gs, hgs⟩ := this
      exact ⟨_, by rw [hgs]; rfl⟩

/-- C63: in a connection from a mesh to its refinement every fine element is in exactly one batch. -/
theorem C63_covered {sameMesh : Bool} {coarse F T : List (SGroup K (List K))}
    {fine : List (SGroup K (List K) × ChildShape)} {records : List RefRecord}
    {gs : List (List (Batch (List (List K))))} {s : Bool}
    (hmake : makeRefinementConn sameMesh coarse fine records = .ok (.direct F T gs s)) :
    F = coarse ∧ T = fine.map Prod.fst ∧ s = true ∧ gs.length = fine.length ∧
    ∀ (t : Nat) f r n, fine[t]? = some f → records[t]? = some r → ExactMapping r.mapping n f.1.nel →
      ∃ bs, gs[t]? = some bs ∧ (bs.flatMap Batch.toEls).Perm (List.range f.1.nel) := by
  obtain ⟨rfl, rfl, h⟩ := make_refine_direct hmake
  obtain ⟨_, _, h3, h4⟩ := refineConnGroups_ok.1 h
  refine ⟨rfl, rfl, ?_, h3, ?_⟩
  · unfold makeRefinementConn at hmake
    split at hmake
    · rw [h] at hmake
      simp only [Except.map, Except.ok.injEq, SameConn.direct.injEq] at hmake
      exact hmake.2.2.2.symm
    · simp at hmake
  · intro t f r n hf hr hx
    obtain ⟨bs, hbs, hb⟩ := h4 t f r hf hr
    obtain ⟨_, hp, _⟩ := refineBatches_ok hb (by rw [hx.2]; exact List.nodup_range)
    exact ⟨bs, hbs, hx.2 ▸ hp⟩

variable [DecidableEq K] {find : List (List K) → List (List K) → List (Option Nat)}
  {resample : List (List K → K) → List (List K) → List (List K) → Option (Mat K)}

/-- C63: the connection takes a function of the coarse space to its values: an element that was not
refined keeps the function, and the `j`-th child gets the function composed with the affine map onto the
`j`-th part of the reference element. -/
theorem C63_exact [CharZero K] (hf : FindSound find) (hr : ResampleSound resample) {sameMesh : Bool}
    {coarse F T : List (SGroup K (List K))} {fine : List (SGroup K (List K) × ChildShape)}
    {records : List RefRecord} {gs : List (List (Batch (List (List K))))} {s : Bool}
    (hmake : makeRefinementConn sameMesh coarse fine records = .ok (.direct F T gs s)) {merge : Bool}
    {ary u : DofArr K} (hc : (SameConn.direct F T gs s).call find resample merge ary = .ok u) {t : Nat}
    {g tg : SGroup K (List K)} {sh : ChildShape} {r : RefRecord} (hg : coarse[t]? = some g)
    (htg : fine[t]? = some (tg, sh)) (hrec : records[t]? = some r)
    (hx : ExactMapping r.mapping g.nel tg.nel) {d : Nat} (hd : ∀ v ∈ r.refVerts, v.length = d) {e : Nat}
    {cs : List Nat} (he : r.mapping[e]? = some cs) {a : List K} (hv : HasValues g a (ary t e)) :
    (∀ k, cs = [k] → ∀ (i : Nat) x, tg.nodes[i]? = some x → u t k i = evalAt g.basis a x) ∧
    (cs.length ≠ 1 → cs.length = r.children.length ∧
      ∀ (j k : Nat) child, cs[j]? = some k → r.children[j]? = some child →
      ∃ origin axs T', ChildCorners sh r.refVerts child origin axs ∧ ChildMap origin axs T' ∧
        ∀ (i : Nat) x, tg.nodes[i]? = some x → x.length = axs.length ∧
          u t k i = evalAt g.basis a (T' x)) := by
  obtain ⟨rfl, rfl, h⟩ := make_refine_direct hmake
  obtain ⟨herr, hcall⟩ := same_noerr hc
  obtain ⟨_, _, _, h4⟩ := refineConnGroups_ok.1 h
  obtain ⟨bs, hbs, hb⟩ := h4 t _ r htg hrec
  rw [Nat.zero_add] at hb
  obtain ⟨hlen, hperm, hfrom, mapped, hm, hone⟩ :=
    refineBatches_ok hb (by rw [hx.2]; exact List.nodup_range)
  have hnod : (bs.flatMap Batch.toEls).Nodup := by
    rw [hperm.nodup_iff, hx.2]
    exact List.nodup_range
  have hgc := call_getElem hcall hbs
  have hgD : (F.map (SGroup.toDGroup find resample))[t]? = some (g.toDGroup find resample) := by
    rw [List.getElem?_map, hg]
    rfl
  -- the value on a child
  have hval : ∀ (j k i : Nat) x, cs[j]? = some k →
      (∃ us, (tg.nodes :: mapped)[if cs.length = 1 then 0 else j + 1]? = some us ∧ us[i]? = some x) →
      u t k i = evalAt g.basis a x := by
    intro j k i x hj hus
    obtain ⟨us, hus, hxi⟩ := hus
    obtain ⟨b, hbm, hsrc, hnodes⟩ := hone e cs j k he hj
    rw [hus, Option.some.injEq] at hnodes
    subst hnodes
    have hbg := (hfrom b hbm).1
    have hgb : F[b.fromGroup]? = some g := by rw [hbg, hg]
    rw [groupCall_batchSum (i := i) ?_ hgc k, sum_one_batch hnod hbm (batch_source_mem hsrc).1,
      batch_exact hf hr (herr _ (List.mem_of_getElem? hbs) _ hbm) hgb hsrc (by rw [hbg]; exact hv) hxi]
    intro b' hb'
    obtain ⟨h1, h2, h3⟩ := hfrom b' hb'
    refine ⟨g.toDGroup find resample, by rw [h1]; exact hgD, ?_, ?_⟩
    · intro f hf'
      have := h2 f hf'
      rw [hx.1] at this
      exact this
    · intro hp
      obtain ⟨I, hI⟩ := Option.ne_none_iff_exists'.1 hp
      simp only [SGroup.toDGroup] at hI ⊢
      have hi := (List.getElem?_eq_some_iff.1 hxi).1
      have hb3 := (hfrom b hbm).2.2
      have hx0 := pickIndices_sound hf hI (List.getElem?_eq_getElem (i := 0) (by omega))
      have := (List.getElem?_eq_some_iff.1 hx0).1
      omega
  refine ⟨?_, ?_⟩
  · rintro k rfl i x hxi
    exact hval 0 k i x rfl ⟨tg.nodes, by simp, hxi⟩
  · intro h1
    refine ⟨(hlen cs (List.mem_of_getElem? he)).resolve_left h1, ?_⟩
    intro j k child hj hch
    obtain ⟨us, hus, hcn⟩ := (mapNodes_ok hm).2 j child hch
    obtain ⟨origin, axs, hcor, hxl, hT, rfl⟩ := childNodes_ok hd hcn
    refine ⟨origin, axs, _, hcor, hT, ?_⟩
    intro i x hxi
    refine ⟨hxl x (List.mem_of_getElem? hxi), hval j k i _ hj ⟨tg.nodes.map (childPoint origin axs), ?_, ?_⟩⟩
    · rw [if_neg h1, List.getElem?_cons_succ]
      exact hus
    · rw [List.getElem?_map, hxi]
      rfl

/-- C63: if the nodes of the coarse groups determine the functions of their spaces and matrices exist, the
connection can be applied (up to 127 children: the number of batches is stored in a byte). -/
theorem C63_defined {sameMesh : Bool} {coarse F T : List (SGroup K (List K))}
    {fine : List (SGroup K (List K) × ChildShape)} {records : List RefRecord}
    {gs : List (List (Batch (List (List K))))} {s : Bool}
    (hmake : makeRefinementConn sameMesh coarse fine records = .ok (.direct F T gs s)) (merge : Bool)
    (ary : DofArr K) (hres : ∀ g ∈ coarse, g.basis.length = g.nodes.length ∧
      ∀ u, resample g.basis u g.nodes ≠ none) (hch : ∀ r ∈ records, r.children.length ≤ 127) :
    ∃ u, (SameConn.direct F T gs s).call find resample merge ary = .ok u := by
  obtain ⟨rfl, rfl, h⟩ := make_refine_direct hmake
  obtain ⟨h1, h2, h3, h4⟩ := refineConnGroups_ok.1 h
  have hnone : (gs.findSome? fun bs => bs.findSome? (batchErr find resample F)) = none := by
    rw [List.findSome?_eq_none_iff]
    intro bs _
    rw [List.findSome?_eq_none_iff]
    intro b _
    unfold batchErr
    split
    · rfl
    · split
      · rfl
      · rename_i g hg
        split
        · rfl
        · obtain ⟨h5, h6⟩ := hres g (List.mem_of_getElem? hg)
          have : ∃ M, resampleMatrix resample g b.nodes = .ok M := by
            unfold resampleMatrix
            split
            · exact ⟨_, rfl⟩
            · rw [if_neg (by simp [h5])]
              cases hM : resample g.basis b.nodes g.nodes with
              | none => exact absurd hM (h6 _)
              | some M => exact ⟨M, rfl⟩
          obtain ⟨M, hM⟩ := this
          rw [hM]
  have hfew : ∀ bs ∈ gs, bs.length ≤ 128 := by
    intro bs hbs
    obtain ⟨t, ht⟩ := List.mem_iff_getElem?.1 hbs
    have htl := (List.getElem?_eq_some_iff.1 ht).1
    have e1 : fine[t]? = some (fine[t]'(by omega)) := List.getElem?_eq_getElem (by omega)
    have e2 : records[t]? = some (records[t]'(by omega)) := List.getElem?_eq_getElem (by omega)
    obtain ⟨bs', h5, h6⟩ := h4 t _ _ e1 e2
    rw [ht] at h5
    cases h5
    have hc := hch _ (List.mem_of_getElem? e2)
    unfold refineBatches at h6
    split at h6
    · simp at h6
    · rename_i bins hb
      split at h6
      · simp at h6
      · simp only [Except.ok.injEq] at h6
        rw [← h6]
        unfold binBatches
        refine (List.length_filterMap_le _ _).trans ?_
        have : bins.length = (records[t]'(by omega)).children.length + 1 := by
          unfold refinementBins at hb
          split at hb
          · simp only [Option.some.injEq] at hb
            simp [← hb]
          · simp at hb
        rw [List.length_zip]
        omega
  obtain ⟨u, hu⟩ := C23_evaluates_few (c := ⟨F.map (SGroup.toDGroup find resample),
    (fine.map Prod.fst).map (SGroup.toDGroup find resample), gs, s⟩) merge ary hfew
  refine ⟨u, ?_⟩
  simp only [SameConn.call, hnone, hu]

omit [DecidableEq K] in
theorem linePoint_getElem? (s : K) {x y : List K} {j : Nat} {a b : K} (ha : x[j]? = some a)
    (hb : y[j]? = some b) : (linePoint s x y)[j]? = some ((1 - s) * a + s * b) := by
  unfold linePoint
  rw [List.getElem?_zipWith_eq_some]
  exact ⟨a, b, ha, hb, rfl⟩

omit [DecidableEq K] in
/-- C63: there is only one affine map with the corners of a child. -/
theorem C63_map_unique [CharZero K] {origin : List Nat} {axs : List (List Nat)} {T T' : List K → List K}
    (h : ChildMap origin axs T) (h' : ChildMap origin axs T') {x : List K} (hx : x.length = axs.length) :
    T x = T' x := by
  suffices H : ∀ m ≤ axs.length, ∀ x : List K, x.length = axs.length →
      (∀ (j : Nat) c, m ≤ j → x[j]? = some c → c = -1) → T x = T' x from
    H axs.length le_rfl x hx fun j c hj hc => by
      have := (List.getElem?_eq_some_iff.1 hc).1
      omega
  intro m
  induction m with
  | zero =>
    intro _ x hx hall
    have : x = List.replicate axs.length (-1) := by
      rw [List.eq_replicate_iff]
      refine ⟨hx, ?_⟩
      intro b hb
      obtain ⟨j, hj⟩ := List.mem_iff_getElem?.1 hb
      exact hall j b (Nat.zero_le _) hj
    rw [this, h.corner, h'.corner]
  | succ m ih =>
    intro hm x hx hall
    have hmx : x[m]? = some (x[m]'(by omega)) := List.getElem?_eq_getElem (by omega)
    have hmv : axs[m]? = some (axs[m]'(by omega)) := List.getElem?_eq_getElem (by omega)
    have hy := ih (by omega) (x.set m (-1)) (by simpa using hx) (by
      intro j c hj hc
      by_cases hjm : j = m
      · subst hjm
        rw [List.getElem?_set_self (by omega)] at hc
        simpa using hc.symm
      · rw [List.getElem?_set_ne (Ne.symm hjm)] at hc
        exact hall j c (by omega) hc)
    have hA : T (linePoint 2 (List.replicate axs.length (-1)) (x.set m (-1))) =
        T' (linePoint 2 (List.replicate axs.length (-1)) (x.set m (-1))) := by
      rw [h.affine _ _ _ (by simp) (by simpa using hx), h'.affine _ _ _ (by simp) (by simpa using hx),
        hy, h.corner, h'.corner]
    have hB : T (linePoint (x[m]'(by omega) + 1) (List.replicate axs.length (-1))
          ((List.replicate axs.length (-1)).set m 1)) =
        T' (linePoint (x[m]'(by omega) + 1) (List.replicate axs.length (-1))
          ((List.replicate axs.length (-1)).set m 1)) := by
      rw [h.affine _ _ _ (by simp) (by simp), h'.affine _ _ _ (by simp) (by simp),
        h.corner, h'.corner, h.edge m _ hmv, h'.edge m _ hmv]
    have hlenA : (linePoint (2 : K) (List.replicate axs.length (-1)) (x.set m (-1))).length = axs.length := by
      simp [linePoint, hx]
    have hlenB : (linePoint (x[m]'(by omega) + 1) (List.replicate axs.length (-1))
        ((List.replicate axs.length (-1)).set m 1)).length = axs.length := by
      simp [linePoint]
    have hxe : x = linePoint (1 / 2) (linePoint 2 (List.replicate axs.length (-1)) (x.set m (-1)))
        (linePoint (x[m]'(by omega) + 1) (List.replicate axs.length (-1))
          ((List.replicate axs.length (-1)).set m 1)) := by
      apply List.ext_getElem?
      intro j
      by_cases hj : j < axs.length
      · have hr : (List.replicate axs.length (-1 : K))[j]? = some (-1) := by
          rw [List.getElem?_replicate, if_pos hj]
        by_cases hjm : j = m
        · subst hjm
          rw [linePoint_getElem? _ (linePoint_getElem? _ hr (List.getElem?_set_self (by omega)))
            (linePoint_getElem? _ hr (List.getElem?_set_self (by simpa using hj))), hmx]
          congr 1
          ring
        · have hxj : x[j]? = some (x[j]'(by omega)) := List.getElem?_eq_getElem (by omega)
          rw [linePoint_getElem? _
              (linePoint_getElem? _ hr (by rw [List.getElem?_set_ne (Ne.symm hjm)]; exact hxj))
              (linePoint_getElem? _ hr (by rw [List.getElem?_set_ne (Ne.symm hjm)]; exact hr)), hxj]
          congr 1
          ring
      · rw [List.getElem?_eq_none (by omega), List.getElem?_eq_none]
        simp [linePoint]
        omega
    rw [hxe, h.affine _ _ _ hlenA hlenB, h'.affine _ _ _ hlenA hlenB, hA, hB]

end

/-- C63: what the refiner records after `refine` meets the conditions on element mappings above. -/
theorem C63_after_refine {N P : Type} {geo : Geo N P} (hgeo : geo.OK) {r r' : Refiner N P}
    (hwf : ∀ g ∈ r.groups, g.vertexIndices.length = g.nodes.length) {flags : List Bool}
    (h : r.refine geo flags = some r') {t : Nat} {g : ElGroup N} (hg : r.groups[t]? = some g) :
    ∃ g' mapping, r'.groups[t]? = some g' ∧ r'.records[t]? = some (geo.tess g, mapping) ∧
      ExactMapping mapping g.nelements g'.nelements ∧
      ∀ c ∈ mapping, c.length = 1 ∨ c.length = (geo.tess g).children.length := by
  obtain ⟨_, _, _, h4⟩ := C20_refine_elements hgeo hwf h
  obtain ⟨g', mapping, h5, h6, h7, h8⟩ := h4 t g hg
  refine ⟨g', mapping, h5, h6, h7, ?_⟩
  intro c hc
  obtain ⟨e, he⟩ := List.mem_iff_getElem?.1 hc
  have hel := (List.getElem?_eq_some_iff.1 he).1
  rw [h7.1] at hel
  have hfl : flags.length = (r.groups.map ElGroup.nelements).sum := by
    unfold Refiner.refine at h
    split at h
    · simp at h
    · rename_i hn
      simpa using hn
  have hlt : ((r.groups.map ElGroup.nelements).take t).sum + e < flags.length := by
    rw [hfl]
    have htl := (List.getElem?_eq_some_iff.1 hg).1
    have h9 : ((r.groups.map ElGroup.nelements).take (t + 1)).sum ≤
        (r.groups.map ElGroup.nelements).sum := by
      conv_rhs => rw [← List.take_append_drop (t + 1) (r.groups.map ElGroup.nelements), List.sum_append]
      omega
    rw [List.take_add_one, List.getElem?_map, hg] at h9
    simp only [Option.map_some, Option.toList_some, List.sum_append, List.sum_cons, List.sum_nil] at h9
    omega
  obtain ⟨h10, h11⟩ := h8 e c he
  cases hb : flags[((r.groups.map ElGroup.nelements).take t).sum + e] with
  | false =>
    obtain ⟨k, rfl, _⟩ := h10 (by rw [List.getElem?_eq_getElem hlt, hb])
    exact .inl rfl
  | true => exact .inr (h11 (by rw [List.getElem?_eq_getElem hlt, hb])).1

/-! ## A case -/

/-- Two linear elements on a line, nodes at their ends. (Example, no code.) -/
def refCoarse : SGroup ℚ (List ℚ) :=
  ⟨true, 2, [[-1], [1]], [fun x => (1 - x.headD 0) / 2, fun x => (1 + x.headD 0) / 2]⟩

/-- A discretization of the refined mesh, nodes inside. (Example, no code.) -/
def refFine : SGroup ℚ (List ℚ) :=
  ⟨true, 3, [[-1 / 2], [1 / 2]], [fun x => 1 / 2 - x.headD 0, fun x => 1 / 2 + x.headD 0]⟩

/-- The first element is kept, the second one is split. (Example, no code.) -/
def refRecord : RefRecord := ⟨[[0, 1], [1, 2]], [[0], [1], [2]], [[0], [1, 2]]⟩

/-- The values on the fine elements. (Example, no code.) -/
def refCall (merge : Bool) : Option (List (List ℚ)) :=
  match makeRefinementConn true [refCoarse] [(refFine, .simplex)] [refRecord] with
  | .ok c =>
    match c.call exactFind lagrangeResample merge (fun _ e i => ([[0, 4], [4, 12]].getD e []).getD i 0) with
    | .ok u => some ((List.range 3).map fun e => (List.range 2).map fun i => u 0 e i)
    | .error _ => none
  | .error _ => none

example : refCall true = some [[1, 3], [5, 7], [9, 11]] ∧ refCall false = refCall true := by decide +kernel

-- the hypotheses of `C63_exact`
example : ExactMapping refRecord.mapping refCoarse.nel refFine.nel ∧
    (∀ v ∈ refRecord.refVerts, v.length = 1) ∧
    HasValues refCoarse [4, 12] (fun i => ([4, 12] : List ℚ).getD i 0) := by
  refine ⟨⟨rfl, by decide⟩, by decide, rfl, ?_⟩
  intro i x hx
  match i with
  | 0 =>
    simp only [refCoarse, List.getElem?_cons_zero, Option.some.injEq] at hx
    subst hx
    decide +kernel
  | 1 =>
    simp only [refCoarse, List.getElem?_cons_succ, List.getElem?_cons_zero, Option.some.injEq] at hx
    subst hx
    decide +kernel
  | i + 2 => simp [refCoarse] at hx

/-- Vertices and midpoints of a triangle. (Example, no code.) -/
def triRef : List (List Nat) := [[0, 0], [1, 0], [2, 0], [0, 1], [1, 1], [0, 2]]

-- the corners and the middle of the four children of a triangle
example : mapNodesToChildren (K := ℚ) .simplex triRef [[-1, -1], [1, -1], [-1, 1], [0, 0]]
    [[0, 1, 3], [1, 2, 4], [3, 4, 5], [4, 3, 1]] =
    .ok [[[-1, -1], [0, -1], [-1, 0], [-1 / 2, -1 / 2]], [[0, -1], [1, -1], [0, 0], [1 / 2, -1 / 2]],
      [[-1, 0], [0, 0], [-1, 1], [-1 / 2, 1 / 2]], [[0, 0], [-1, 0], [0, -1], [-1 / 2, -1 / 2]]] := by
  decide +kernel

-- a square, whose axes are at vertices 1 and 2
example : mapNodesToChildren (K := ℚ) (.tensor 2) [[0, 0], [1, 0], [2, 0], [0, 1], [1, 1], [2, 1], [0, 2],
    [1, 2], [2, 2]] [[-1, -1], [1, 1]] [[0, 1, 3, 4], [4, 5, 7, 8]] =
    .ok [[[-1, -1], [0, 0]], [[0, 0], [1, 1]]] := by
  decide +kernel

-- an element with a number of children that does not fit, an unknown type, another mesh
example : makeRefinementConn true [refCoarse] [(refFine, .simplex)] [{ refRecord with mapping := [[0, 1, 2]] }] =
      .error .assertion ∧
    makeRefinementConn true [refCoarse] [(refFine, .other)] [refRecord] = .error .notImplemented ∧
    makeRefinementConn false [refCoarse] [(refFine, .simplex)] [refRecord] = .error .meshes :=
  ⟨rfl, rfl, rfl⟩

end Meshmode
