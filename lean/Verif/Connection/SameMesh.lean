import Verif.Connection.DirectProps
import Verif.Connection.Modal

/-!
# Connections between discretizations of one mesh (C62)

`make_same_mesh_connection` (meshmode/discretization/connection/same_mesh.py) and the evaluation of the
connection it makes, with the resampling matrix of meshmode/discretization/connection/direct.py:384-422
written out.  `find_point_to_point_mapping` and `mp.resampling_matrix` are parameters; arithmetic is
exact.
-/
namespace Meshmode

open Finset

/-! ## Model -/

/-- An element group of a discretization: whether it is nodal, number of elements, unit nodes and basis
functions. Code: meshmode/discretization/__init__.py:95-330. -/
structure SGroup (K P : Type) where
  nodal : Bool
  nel : Nat
  nodes : List P
  basis : List (P → K)

/-- A discretization: identities of the object and of its mesh, and its groups.
Code: meshmode/discretization/__init__.py:380-440. -/
structure SDiscr (K P : Type) where
  self : Nat
  mesh : Nat
  groups : List (SGroup K P)

/-- Exceptions. Code: meshmode/discretization/connection/same_mesh.py:56-76,
meshmode/discretization/connection/direct.py:400-411. -/
inductive SameErr where
  /-- `ValueError`: different meshes -/
  | meshes
  /-- `ValueError` of `zip(strict=True)` -/
  | groups
  /-- failed assertion -/
  | assertion
  /-- `NoninterpolatoryElementGroupError` -/
  | notUnisolvent
  /-- `LinAlgError` of `mp.resampling_matrix` -/
  | singular
  deriving DecidableEq, Repr

/-- The connection returned. Code: meshmode/discretization/connection/same_mesh.py:60-91. -/
inductive SameConn (K P : Type) where
  | identity
  | direct (fromD toD : List (SGroup K P)) (groups : List (List (Batch (List P)))) (surjective : Bool)

section
variable {K P : Type}

/-- The loop over the groups, meshmode/discretization/connection/same_mesh.py:63-87; the target group is
looked at before the lengths are compared. -/
def sameMeshGroups : Nat → List (SGroup K P) → List (SGroup K P) →
    Except SameErr (List (List (Batch (List P))))
  | _, [], [] => .ok []
  | igrp, fgrp :: fgrps, tgrp :: tgrps =>
    if tgrp.nodal then
      (sameMeshGroups (igrp + 1) fgrps tgrps).map
        ([⟨igrp, List.range fgrp.nel, List.range fgrp.nel, tgrp.nodes, none⟩] :: ·)
    else .error .assertion
  | _, _, _ => .error .groups

/-- `make_same_mesh_connection`, meshmode/discretization/connection/same_mesh.py:43-87. -/
def makeSameMesh (toD fromD : SDiscr K P) : Except SameErr (SameConn K P) :=
  if fromD.mesh ≠ toD.mesh then .error .meshes
  else if fromD.self = toD.self then .ok .identity
  else (sameMeshGroups 0 fromD.groups toD.groups).map fun gs =>
    .direct fromD.groups toD.groups gs true

variable [Field K] [DecidableEq P]

/-- `_resample_matrix`, meshmode/discretization/connection/direct.py:387-417; `resample` is
`mp.resampling_matrix(basis, new_nodes, old_nodes)`. -/
def resampleMatrix (resample : List (P → K) → List P → List P → Option (Mat K)) (grp : SGroup K P)
    (nodes : List P) : Except SameErr (Mat K) :=
  if grp.nodes = nodes then
    .ok ((List.range grp.nodes.length).map fun i =>
      (List.range grp.nodes.length).map fun j => if i = j then 1 else 0)
  else if grp.basis.length ≠ grp.nodes.length then .error .notUnisolvent
  else match resample grp.basis nodes grp.nodes with
    | some M => .ok M
    | none => .error .singular

/-- `_resample_point_pick_indices`, meshmode/discretization/connection/direct.py:423-446; `find` is
`find_point_to_point_mapping(src_points, tgt_points)`. -/
def pickIndices (find : List P → List P → List (Option Nat)) (grp : SGroup K P) (nodes : List P) :
    Option (List Nat) := (find nodes grp.nodes).mapM id

/-- A group as the model of direct connections sees it.
Code: meshmode/discretization/connection/direct.py:384-451. -/
def SGroup.toDGroup (find : List P → List P → List (Option Nat))
    (resample : List (P → K) → List P → List P → Option (Mat K)) (grp : SGroup K P) :
    DGroup K (List P) where
  nel := grp.nel
  ndof := grp.nodes.length
  mat := fun u i j => match resampleMatrix resample grp u with
    | .ok M => (M.getD i []).getD j 0
    | .error _ => 0
  pick := pickIndices find grp

/-- The exception of the resampling matrix of a batch, if it is needed,
meshmode/discretization/connection/direct.py:787-806. -/
def batchErr (find : List P → List P → List (Option Nat))
    (resample : List (P → K) → List P → List P → Option (Mat K)) (fromD : List (SGroup K P))
    (b : Batch (List P)) : Option SameErr :=
  if b.fromEls.isEmpty then none
  else match fromD[b.fromGroup]? with
    | none => none
    | some g =>
      match pickIndices find g b.nodes with
      | some _ => none
      | none =>
        match resampleMatrix resample g b.nodes with
        | .ok _ => none
        | .error e => some e

/-- `__call__` of the connection on an array of the source discretization,
meshmode/discretization/connection/direct.py:342-343, 587-870.  The pick data of all groups come first. -/
def SameConn.call (find : List P → List P → List (Option Nat))
    (resample : List (P → K) → List P → List P → Option (Mat K)) (merge : Bool) (ary : DofArr K) :
    SameConn K P → Except SameErr (DofArr K)
  | .identity => .ok ary
  | .direct fromD toD groups surj =>
    match DirectConn.call ⟨fromD.map (SGroup.toDGroup find resample),
        toD.map (SGroup.toDGroup find resample), groups, surj⟩ merge ary with
    | none => .error .assertion
    | some u =>
      match groups.findSome? fun bs => bs.findSome? (batchErr find resample fromD) with
      | some e => .error e
      | none => .ok u

/-! ## Specification -/

/-- A point that is found is the same point. (Specification or proof vocabulary, no code.) -/
def FindSound (find : List P → List P → List (Option Nat)) : Prop :=
  ∀ src tgt, List.Forall₂ (fun x r => ∀ j, r = some j → tgt[j]? = some x) src (find src tgt)

/-- The resampling matrix takes values at the old nodes to values of the interpolant at the new nodes,
and there is just one interpolant. (Specification or proof vocabulary, no code.) -/
def ResampleSound (resample : List (P → K) → List P → List P → Option (Mat K)) : Prop :=
  ∀ basis new old M, basis.length = old.length → resample basis new old = some M →
    M.length = new.length ∧ (∀ row ∈ M, row.length = old.length) ∧
    (∀ v : List K, v.length = old.length → ∃ c : List K, c.length = basis.length ∧
      old.map (evalAt basis c) = v ∧ matVec M v = new.map (evalAt basis c)) ∧
    ∀ c c' : List K, c.length = basis.length → c'.length = basis.length →
      old.map (evalAt basis c) = old.map (evalAt basis c') → c = c'

/-- The function with coefficients `c` has the values of the array on an element.
(Specification or proof vocabulary, no code.) -/
def HasValues (g : SGroup K P) (c : List K) (vals : Nat → K) : Prop :=
  c.length = g.basis.length ∧ ∀ (i : Nat) x, g.nodes[i]? = some x → vals i = evalAt g.basis c x

/-! ## Lemmas -/

omit [Field K] [DecidableEq P] in
theorem sameMeshGroups_ok (igrp : Nat) (fs ts : List (SGroup K P)) (gs : List (List (Batch (List P)))) :
    sameMeshGroups igrp fs ts = .ok gs ↔ fs.length = ts.length ∧ (∀ t ∈ ts, t.nodal = true) ∧
      gs = ((fs.zip ts).zipIdx igrp).map fun p =>
        [⟨p.2, List.range p.1.1.nel, List.range p.1.1.nel, p.1.2.nodes, none⟩] := by
  induction fs generalizing igrp ts gs with
  | nil =>
    cases ts with
    | nil =>
      simp [sameMeshGroups]
    | cons t ts => simp [sameMeshGroups]
  | cons f fs ih =>
    cases ts with
    | nil => simp [sameMeshGroups]
    | cons t ts =>
      simp only [sameMeshGroups]
      split
      · rename_i ht
        cases h : sameMeshGroups (igrp + 1) fs ts with
        | error e =>
          have hno : ∀ gs', ¬ (fs.length = ts.length ∧ (∀ t ∈ ts, t.nodal = true) ∧ _) := fun gs' hh => by
            have := (ih (igrp + 1) ts gs').2 hh
            rw [h] at this
            simp at this
          simp only [Except.map, reduceCtorEq, List.length_cons, Nat.add_right_cancel_iff,
            List.forall_mem_cons, false_iff]
          rintro ⟨h1, h2, _⟩
          exact hno _ ⟨h1, h2.2, rfl⟩
        | ok gs' =>
          obtain ⟨h1, h2, h3⟩ := (ih (igrp + 1) ts gs').1 h
          subst h3
          simp only [Except.map, Except.ok.injEq, List.length_cons,
            List.forall_mem_cons, h1, ht, true_and, List.zip_cons_cons, List.zipIdx_cons, List.map_cons]
          constructor
          · intro h
            exact ⟨h2, h.symm⟩
          · intro h
            exact h.2.symm
      · rename_i ht
        simp [ht]

omit [DecidableEq P] in
theorem range_source {n e : Nat} (he : e < n) (s : Nat) (u : List P) :
    (⟨s, List.range n, List.range n, u, none⟩ : Batch (List P)).source e = some e := by
  have hz : (List.range n).zip (List.range n) = (List.range n).map fun k => (k, k) := by
    rw [List.zip_eq_zipWith, List.zipWith_self]
  unfold Batch.source
  rw [hz, ← List.map_reverse]
  have hm : e ∈ (List.range n).reverse := by simpa using he
  revert hm
  generalize (List.range n).reverse = l
  intro hm
  induction l with
  | nil => simp at hm
  | cons a l ih =>
    rw [List.map_cons, List.lookup_cons]
    by_cases h : e = a
    · subst h
      simp
    · have hb : (e == a) = false := by simpa using h
      rw [hb]
      exact ih ((List.mem_cons.1 hm).resolve_left h)

theorem single_batch {U R : Type} [CommRing R] {fromD : List (DGroup R U)} {b : Batch U} {merge : Bool}
    {ary : DofArr R} {u : Nat → Nat → R} (h : groupCall merge fromD ary [b] = some u) {e f : Nat}
    (hs : b.source e = some f) {g : DGroup R U} (hg : fromD[b.fromGroup]? = some g)
    (hne : g.pick b.nodes ≠ none → g.nel * g.ndof ≠ 0) (i : Nat) :
    u e i = match g.pick b.nodes with
      | some I => ary b.fromGroup f (I.getD i 0)
      | none => ∑ j ∈ range g.ndof, g.mat b.nodes i j * ary b.fromGroup f j := by
  have hemp : b.fromEls.isEmpty = false := by
    have := (batch_source_mem hs).2
    cases hb : b.fromEls with
    | nil => simp [hb] at this
    | cons => rfl
  have hpath : batchPath fromD ary [b] e i = match g.pick b.nodes with
      | some I => ary b.fromGroup f (I.getD i 0)
      | none => ∑ j ∈ range g.ndof, g.mat b.nodes i j * ary b.fromGroup f j := by
    simp only [batchPath, hemp, Bool.not_false, List.filter_cons_of_pos, List.filter_nil, List.map_cons,
      List.map_nil, List.sum_cons, List.sum_nil, add_zero, batchEval, hs, hg]
    rfl
  unfold groupCall at h
  cases hp : g.pick b.nodes with
  | none =>
    have : pickInfo fromD [b] = .unused := by
      simp [pickInfo, hg, hp]
    rw [this] at h
    simp only [Option.some.injEq] at h
    rw [← h, hpath, hp]
  | some I =>
    have : pickInfo fromD [b] = .used [⟨b.fromGroup, [I],
        fun e => if e ∈ b.toEls then 0 else 0, b.source⟩] := by
      simp [pickInfo, hg, hp, npUnique, sortNat, stableSort, insertBy, pickSources, pickFill, firstOccs]
      funext e
      cases b.source e <;> rfl
    rw [this] at h
    simp only at h
    split at h
    · simp only [Option.some.injEq] at h
      rw [← h]
      have hb : (g.nel * g.ndof != 0) = true := by simpa using hne (by simp [hp])
      simp [hg, hb, pickEval, hs]
    · simp only [Option.some.injEq] at h
      rw [← h, hpath, hp]

variable {find : List P → List P → List (Option Nat)}
  {resample : List (P → K) → List P → List P → Option (Mat K)}

omit [Field K] [DecidableEq P] in
theorem pickIndices_sound (hf : FindSound find) {g : SGroup K P} {nodes : List P} {I : List Nat}
    (h : pickIndices find g nodes = some I) {i : Nat} {x : P} (hx : nodes[i]? = some x) :
    g.nodes[I.getD i 0]? = some x := by
  have hF := hf nodes g.nodes
  unfold pickIndices at h
  obtain ⟨hl, h2⟩ := mapM_getElem?_some h
  have hlen := hF.length_eq
  have hi := (List.getElem?_eq_some_iff.1 hx).1
  have hr : (find nodes g.nodes)[i]? = some ((find nodes g.nodes)[i]'(by omega)) :=
    List.getElem?_eq_getElem (by omega)
  obtain ⟨j, hj, hj'⟩ := h2 i _ hr
  have := (List.forall₂_iff_get.1 hF).2 i hi (by omega)
  simp only [List.get_eq_getElem] at this
  have hx' : nodes[i] = x := (List.getElem?_eq_some_iff.1 hx).2
  rw [hx'] at this
  rw [List.getD_eq_getElem?_getD, hj, Option.getD_some]
  exact this j hj'

omit [Field K] [DecidableEq P] in
theorem batch_of_same {F T : List (SGroup K P)} {gs : List (List (Batch (List P)))}
    (h : sameMeshGroups 0 F T = .ok gs) {t : Nat} {g tg : SGroup K P} (hg : F[t]? = some g)
    (ht : T[t]? = some tg) :
    gs[t]? = some [⟨t, List.range g.nel, List.range g.nel, tg.nodes, none⟩] := by
  obtain ⟨_, _, rfl⟩ := (sameMeshGroups_ok 0 F T gs).1 h
  rw [List.getElem?_map, List.getElem?_zipIdx, List.getElem?_zip_eq_some (z := (g, tg)).2 ⟨hg, ht⟩]
  simp

theorem same_noerr {F T : List (SGroup K P)} {gs : List (List (Batch (List P)))} {s merge : Bool}
    {ary u : DofArr K} (hc : (SameConn.direct F T gs s).call find resample merge ary = .ok u) :
    (∀ bs ∈ gs, ∀ b ∈ bs, batchErr find resample F b = none) ∧
    DirectConn.call ⟨F.map (SGroup.toDGroup find resample), T.map (SGroup.toDGroup find resample), gs, s⟩
      merge ary = some u := by
  simp only [SameConn.call] at hc
  split at hc
  · simp at hc
  · rename_i h
    split at hc
    · simp at hc
    · rename_i hnone
      refine ⟨?_, ?_⟩
      · intro bs hbs b hb
        exact List.findSome?_eq_none_iff.1 (List.findSome?_eq_none_iff.1 hnone bs hbs) b hb
      · simp only [Except.ok.injEq] at hc
        rw [h, hc]

/-- The value on one element: picked or resampled. -/
theorem same_value (hf : FindSound find) {F T : List (SGroup K P)}
    {gs : List (List (Batch (List P)))} (h : sameMeshGroups 0 F T = .ok gs) {s merge : Bool}
    {ary u : DofArr K} (hc : (SameConn.direct F T gs s).call find resample merge ary = .ok u) {t : Nat}
    {g tg : SGroup K P} (hg : F[t]? = some g) (ht : T[t]? = some tg) {e : Nat} (he : e < g.nel) {i : Nat}
    (hi : i < tg.nodes.length) :
    (∃ I, pickIndices find g tg.nodes = some I ∧ u t e i = ary t e (I.getD i 0)) ∨
    ∃ M, resampleMatrix resample g tg.nodes = .ok M ∧
      u t e i = ∑ j ∈ range g.nodes.length, (M.getD i []).getD j 0 * ary t e j := by
  obtain ⟨herr, hcall⟩ := same_noerr hc
  have hb := batch_of_same h hg ht
  have hgc := call_getElem hcall hb
  have hgD : (F.map (SGroup.toDGroup find resample))[t]? = some (g.toDGroup find resample) := by
    rw [List.getElem?_map, hg]
    rfl
  have hv := single_batch hgc (range_source he t tg.nodes) (g := g.toDGroup find resample) hgD (by
    intro hp
    simp only [SGroup.toDGroup] at hp ⊢
    obtain ⟨I, hI⟩ := Option.ne_none_iff_exists'.1 hp
    have hx := pickIndices_sound hf hI (List.getElem?_eq_getElem hi)
    have := (List.getElem?_eq_some_iff.1 hx).1
    exact Nat.mul_ne_zero (by omega) (by omega)) i
  have hberr := herr _ (List.mem_of_getElem? hb) _ (List.mem_singleton.2 rfl)
  have hemp : (List.range g.nel).isEmpty = false := by
    cases hn : g.nel with
    | zero => omega
    | succ n => simp [List.range_succ_eq_map]
  unfold batchErr at hberr
  simp only [hemp, hg] at hberr
  cases hp : pickIndices find g tg.nodes with
  | some I =>
    left
    refine ⟨I, rfl, ?_⟩
    rw [hv]
    simp only [SGroup.toDGroup, hp]
  | none =>
    right
    rw [hp] at hberr
    cases hM : resampleMatrix resample g tg.nodes with
    | error e => simp [hM] at hberr
    | ok M =>
      refine ⟨M, rfl, ?_⟩
      rw [hv]
      simp only [SGroup.toDGroup, hp, hM]

omit [DecidableEq P] in
theorem rowDot_eq_sum (row : List K) (n : Nat) (h : row.length = n) (f : Nat → K) :
    rowDot row ((List.range n).map f) = ∑ j ∈ range n, row.getD j 0 * f j := by
  subst h
  unfold rowDot
  induction row generalizing f with
  | nil => simp
  | cons a row ih =>
    rw [List.length_cons, List.range_succ_eq_map, List.map_cons, List.zipWith_cons_cons, List.sum_cons,
      Finset.sum_range_succ', List.map_map, ih]
    simp only [Function.comp, List.getD_cons_succ, List.getD_cons_zero]
    ring

/-- The resampling matrix of a group takes a function of its space to its values. -/
theorem resample_exact (hr : ResampleSound resample) {g : SGroup K P} {nodes : List P} {M : Mat K}
    (hM : resampleMatrix resample g nodes = .ok M) {c : List K} {vals : Nat → K}
    (hv : HasValues g c vals) {i : Nat} {x : P} (hx : nodes[i]? = some x) :
    ∑ j ∈ range g.nodes.length, (M.getD i []).getD j 0 * vals j = evalAt g.basis c x := by
  have hi := (List.getElem?_eq_some_iff.1 hx).1
  unfold resampleMatrix at hM
  split at hM
  · rename_i heq
    simp only [Except.ok.injEq] at hM
    subst hM
    rw [← heq] at hi hx
    rw [Finset.sum_eq_single i]
    · simp [hi, hv.2 i x hx]
    · intro j hj hne
      simp at hj
      simp [hi, hj, Ne.symm hne]
    · intro hn
      simp at hn
      omega
  · split at hM
    · simp at hM
    · rename_i hlen
      split at hM
      · rename_i M' hres
        simp only [Except.ok.injEq] at hM
        subst hM
        obtain ⟨h1, h2, h3, h4⟩ := hr _ _ _ _ (by simpa using hlen) hres
        have hvals : (List.range g.nodes.length).map (vals) = g.nodes.map (evalAt g.basis c) := by
          apply List.ext_getElem
          · simp
          · intro k hk _
            simp at hk
            simp only [List.getElem_map, List.getElem_range]
            exact hv.2 k _ (List.getElem?_eq_getElem hk)
        obtain ⟨c', hc1, hc2, hc3⟩ := h3 ((List.range g.nodes.length).map (vals)) (by simp)
        have hcc : c' = c := h4 c' c hc1 hv.1 (by rw [hc2, hvals])
        subst hcc
        have hrow : M'[i]? = some (M'[i]'(by omega)) := List.getElem?_eq_getElem (by omega)
        have hMi : (matVec M' ((List.range g.nodes.length).map (vals)))[i]? =
            some (evalAt g.basis c' x) := by
          rw [hc3, List.getElem?_map, hx]
          rfl
        unfold matVec at hMi
        rw [List.getElem?_map, hrow, Option.map_some, Option.some.injEq,
          rowDot_eq_sum _ _ (h2 _ (List.mem_of_getElem? hrow))] at hMi
        rw [← hMi]
        simp only [List.getD_eq_getElem?_getD, hrow, Option.getD_some]
      · simp at hM

/-- What a batch gives for a function of the source space. -/
theorem batch_exact (hf : FindSound find) (hr : ResampleSound resample) {F : List (SGroup K P)}
    {b : Batch (List P)} (herr : batchErr find resample F b = none) {g : SGroup K P}
    (hg : F[b.fromGroup]? = some g) {e f : Nat} (hs : b.source e = some f) {ary : DofArr K} {c : List K}
    (hv : HasValues g c (ary b.fromGroup f)) {i : Nat} {x : P} (hx : b.nodes[i]? = some x) :
    batchEval (F.map (SGroup.toDGroup find resample)) ary b e i = evalAt g.basis c x := by
  have hgD : (F.map (SGroup.toDGroup find resample))[b.fromGroup]? = some (g.toDGroup find resample) := by
    rw [List.getElem?_map, hg]
    rfl
  have hemp : b.fromEls.isEmpty = false := by
    have := (batch_source_mem hs).2
    cases hb : b.fromEls with
    | nil => simp [hb] at this
    | cons => rfl
  unfold batchErr at herr
  simp only [hemp, hg] at herr
  unfold batchEval
  simp only [hs, hgD]
  simp only [SGroup.toDGroup]
  cases hp : pickIndices find g b.nodes with
  | some I => exact hv.2 _ _ (pickIndices_sound hf hp hx)
  | none =>
    rw [hp] at herr
    cases hM : resampleMatrix resample g b.nodes with
    | error e => simp [hM] at herr
    | ok M => exact resample_exact hr hM hv hx

omit [Field K] [DecidableEq P] in
theorem make_direct {toD fromD : SDiscr K P} {F T : List (SGroup K P)}
    {gs : List (List (Batch (List P)))} {s : Bool}
    (hmake : makeSameMesh toD fromD = .ok (.direct F T gs s)) :
    fromD.groups = F ∧ toD.groups = T ∧ sameMeshGroups 0 F T = .ok gs := by
  unfold makeSameMesh at hmake
  split at hmake
  · simp at hmake
  · split at hmake
    · simp at hmake
    · cases hs : sameMeshGroups 0 fromD.groups toD.groups with
      | error e => simp [hs, Except.map] at hmake
      | ok gs' =>
        simp only [hs, Except.map, Except.ok.injEq, SameConn.direct.injEq] at hmake
        obtain ⟨rfl, rfl, rfl, _⟩ := hmake
        exact ⟨rfl, rfl, hs⟩

/-! ## Properties -/

omit [Field K] [DecidableEq P] in
/-- C62: discretizations of different meshes are refused, a discretization is connected to itself by the
identity, and otherwise there is a connection if there are equally many groups and the target is nodal:
for each group one batch with all elements in order. -/
theorem C62_constructor (toD fromD : SDiscr K P) :
    (fromD.mesh ≠ toD.mesh → makeSameMesh toD fromD = .error .meshes) ∧
    (fromD.mesh = toD.mesh → fromD.self = toD.self → makeSameMesh toD fromD = .ok .identity) ∧
    (fromD.mesh = toD.mesh → fromD.self ≠ toD.self → ∀ c, makeSameMesh toD fromD = .ok c ↔
      fromD.groups.length = toD.groups.length ∧ (∀ t ∈ toD.groups, t.nodal = true) ∧
      ∃ gs, c = .direct fromD.groups toD.groups gs true ∧ gs.length = fromD.groups.length ∧
        ∀ (t : Nat) g tg, fromD.groups[t]? = some g → toD.groups[t]? = some tg →
          gs[t]? = some [⟨t, List.range g.nel, List.range g.nel, tg.nodes, none⟩]) := by
  refine ⟨fun h => by simp [makeSameMesh, h], fun h h' => by simp [makeSameMesh, h, h'], ?_⟩
  intro h h' c
  have hk := sameMeshGroups_ok 0 fromD.groups toD.groups
  unfold makeSameMesh
  rw [if_neg (by simp [h]), if_neg h']
  constructor
  · intro hc
    cases hs : sameMeshGroups 0 fromD.groups toD.groups with
    | error e => simp [hs, Except.map] at hc
    | ok gs =>
      obtain ⟨h1, h2, h3⟩ := (hk gs).1 hs
      rw [hs] at hc
      simp only [Except.map, Except.ok.injEq] at hc
      refine ⟨h1, h2, gs, hc.symm, by simp [h3, h1], ?_⟩
      intro t g tg hg ht
      rw [h3, List.getElem?_map, List.getElem?_zipIdx,
        List.getElem?_zip_eq_some (z := (g, tg)).2 ⟨hg, ht⟩]
      simp
  · rintro ⟨h1, h2, gs, rfl, h3, h4⟩
    have hgs : gs = ((fromD.groups.zip toD.groups).zipIdx 0).map fun p =>
        [⟨p.2, List.range p.1.1.nel, List.range p.1.1.nel, p.1.2.nodes, none⟩] := by
      apply List.ext_getElem?
      intro t
      by_cases ht : t < fromD.groups.length
      · have e1 : fromD.groups[t]? = some fromD.groups[t] := List.getElem?_eq_getElem ht
        have e2 : toD.groups[t]? = some (toD.groups[t]'(by omega)) := List.getElem?_eq_getElem (by omega)
        rw [h4 t _ _ e1 e2, List.getElem?_map, List.getElem?_zipIdx,
          List.getElem?_zip_eq_some (z := (_, _)).2 ⟨e1, e2⟩]
        simp
      · rw [List.getElem?_eq_none (by omega), List.getElem?_eq_none]
        simp
        omega
    rw [(hk gs).2 ⟨h1, h2, hgs⟩]
    rfl

/-- C62: the connection reproduces functions of the source space: if the values on an element are those
of a combination of the basis functions, the result consists of the values of this function at the unit
nodes of the target. -/
theorem C62_exact (hf : FindSound find) (hr : ResampleSound resample) {toD fromD : SDiscr K P}
    {F T : List (SGroup K P)} {gs : List (List (Batch (List P)))} {s : Bool}
    (hmake : makeSameMesh toD fromD = .ok (.direct F T gs s)) {merge : Bool} {ary u : DofArr K}
    (hc : (SameConn.direct F T gs s).call find resample merge ary = .ok u) {t : Nat}
    {g tg : SGroup K P} (hg : fromD.groups[t]? = some g) (ht : toD.groups[t]? = some tg) {e : Nat}
    (he : e < g.nel) {c : List K} (hv : HasValues g c (ary t e)) {i : Nat} {x : P}
    (hx : tg.nodes[i]? = some x) : u t e i = evalAt g.basis c x := by
  obtain ⟨rfl, rfl, h⟩ := make_direct hmake
  have hi := (List.getElem?_eq_some_iff.1 hx).1
  rcases same_value hf h hc hg ht he hi with ⟨I, hI, hu⟩ | ⟨M, hM, hu⟩
  · rw [hu]
    exact hv.2 _ _ (pickIndices_sound hf hI hx)
  · rw [hu]
    exact resample_exact hr hM hv hx

/-- For all values at the unit nodes there is a function of the space with these values.
(Specification or proof vocabulary, no code.) -/
def Unisolvent (g : SGroup K P) : Prop := ∀ vals : Nat → K, ∃ c, HasValues g c vals

/-- C62: for a group whose nodes determine the functions of its space, the result consists of the values
of the interpolant, whatever the data. -/
theorem C62_interpolant (hf : FindSound find) (hr : ResampleSound resample) {toD fromD : SDiscr K P}
    {F T : List (SGroup K P)} {gs : List (List (Batch (List P)))} {s : Bool}
    (hmake : makeSameMesh toD fromD = .ok (.direct F T gs s)) {merge : Bool} {ary u : DofArr K}
    (hc : (SameConn.direct F T gs s).call find resample merge ary = .ok u) {t : Nat}
    {g tg : SGroup K P} (hg : fromD.groups[t]? = some g) (ht : toD.groups[t]? = some tg)
    (hu : Unisolvent g) {e : Nat} (he : e < g.nel) :
    ∃ c, HasValues g c (ary t e) ∧
      ∀ (i : Nat) x, tg.nodes[i]? = some x → u t e i = evalAt g.basis c x := by
  obtain ⟨c, hv⟩ := hu (ary t e)
  exact ⟨c, hv, fun i x hx => C62_exact hf hr hmake hc hg ht he hv hx⟩

/-- C62: data taken to a discretization whose space contains that of the source, and back, is unchanged.
-/
theorem C62_round_trip (hf : FindSound find) (hr : ResampleSound resample) {toD fromD : SDiscr K P}
    {c c' : SameConn K P} (hmake : makeSameMesh toD fromD = .ok c)
    (hmake' : makeSameMesh fromD toD = .ok c') {merge merge' : Bool} {ary u w : DofArr K}
    (hc : c.call find resample merge ary = .ok u) (hc' : c'.call find resample merge' u = .ok w)
    {t : Nat} {g tg : SGroup K P} (hg : fromD.groups[t]? = some g) (ht : toD.groups[t]? = some tg)
    (hnel : g.nel = tg.nel) (hu : Unisolvent g)
    (hsub : ∀ a : List K, a.length = g.basis.length → ∃ b : List K, b.length = tg.basis.length ∧
      ∀ x, evalAt tg.basis b x = evalAt g.basis a x) {e : Nat} (he : e < g.nel) {i : Nat}
    (hi : i < g.nodes.length) : w t e i = ary t e i := by
  cases c with
  | identity =>
    have hs : fromD.mesh = toD.mesh ∧ fromD.self = toD.self := by
      unfold makeSameMesh at hmake
      split at hmake
      · simp at hmake
      · rename_i h1
        split at hmake
        · rename_i h2
          exact ⟨by simpa using h1, h2⟩
        · cases hs : sameMeshGroups 0 fromD.groups toD.groups <;> simp [hs, Except.map] at hmake
    rw [(C62_constructor fromD toD).2.1 hs.1.symm hs.2.symm] at hmake'
    simp only [Except.ok.injEq] at hmake'
    subst hmake'
    simp only [SameConn.call, Except.ok.injEq] at hc hc'
    rw [← hc', ← hc]
  | direct F T gs s =>
    cases c' with
    | identity =>
      exfalso
      have hs : toD.mesh = fromD.mesh ∧ toD.self = fromD.self := by
        unfold makeSameMesh at hmake'
        split at hmake'
        · simp at hmake'
        · rename_i h1
          split at hmake'
          · rename_i h2
            exact ⟨by simpa using h1, h2⟩
          · cases hs : sameMeshGroups 0 toD.groups fromD.groups <;> simp [hs, Except.map] at hmake'
      rw [(C62_constructor toD fromD).2.1 hs.1.symm hs.2.symm] at hmake
      simp at hmake
    | direct F' T' gs' s' =>
      obtain ⟨a, ha, hua⟩ := C62_interpolant hf hr hmake hc hg ht hu he
      obtain ⟨b, hb, hab⟩ := hsub a ha.1
      have hv : HasValues tg b (u t e) := ⟨hb, fun k x hx => by rw [hua k x hx, hab]⟩
      have hx : g.nodes[i]? = some g.nodes[i] := List.getElem?_eq_getElem hi
      rw [C62_exact hf hr hmake' hc' ht hg (hnel ▸ he) hv hx, hab, ← ha.2 i _ hx]

/-- C62: there is a result if and only if in each group with elements the unit nodes of the target are
among those of the source, or the space of the source allows interpolation. -/
theorem C62_defined {toD fromD : SDiscr K P} {F T : List (SGroup K P)}
    {gs : List (List (Batch (List P)))} {s : Bool}
    (hmake : makeSameMesh toD fromD = .ok (.direct F T gs s)) (merge : Bool) (ary : DofArr K) :
    (∃ u, (SameConn.direct F T gs s).call find resample merge ary = .ok u) ↔
      ∀ (t : Nat) g tg, fromD.groups[t]? = some g → toD.groups[t]? = some tg → g.nel ≠ 0 →
        (find tg.nodes g.nodes).all Option.isSome = true ∨ g.nodes = tg.nodes ∨
        (g.basis.length = g.nodes.length ∧ resample g.basis tg.nodes g.nodes ≠ none) := by
  obtain ⟨rfl, rfl, h⟩ := make_direct hmake
  have hpick : ∀ (g : SGroup K P) (u : List P), pickIndices find g u ≠ none ↔
      (find u g.nodes).all Option.isSome = true := by
    intro g u
    unfold pickIndices
    generalize find u g.nodes = l
    induction l with
    | nil => simp
    | cons a l ih =>
      cases a with
      | none => simp
      | some a =>
        rw [List.mapM_cons, List.all_cons, Option.isSome_some, Bool.true_and, ← ih]
        cases List.mapM id l <;> simp
  have hone : ∀ (t : Nat) (g tg : SGroup K P), fromD.groups[t]? = some g →
      (batchErr find resample fromD.groups
        ⟨t, List.range g.nel, List.range g.nel, tg.nodes, none⟩ = none ↔ (g.nel ≠ 0 →
        (find tg.nodes g.nodes).all Option.isSome = true ∨ g.nodes = tg.nodes ∨
        (g.basis.length = g.nodes.length ∧ resample g.basis tg.nodes g.nodes ≠ none))) := by
    intro t g tg hg
    unfold batchErr
    rw [← hpick]
    by_cases hn : g.nel = 0
    · simp [hn]
    · have hemp : (List.range g.nel).isEmpty = false := by
        cases hn' : g.nel with
        | zero => omega
        | succ n => simp [List.range_succ_eq_map]
      simp only [hemp, hg, hn, ne_eq, not_false_eq_true, true_imp_iff]
      cases hp : pickIndices find g tg.nodes with
      | some I => simp
      | none =>
        simp only [Bool.false_eq_true, if_false, not_true_eq_false, false_or]
        unfold resampleMatrix
        by_cases h1 : g.nodes = tg.nodes
        · simp [h1]
        · rw [if_neg h1]
          by_cases h2 : g.basis.length = g.nodes.length
          · rw [if_neg (by simp [h2])]
            cases resample g.basis tg.nodes g.nodes <;> simp [h1, h2]
          · rw [if_pos h2]
            simp [h1, h2]
  constructor
  · rintro ⟨u, hu⟩ t g tg hg ht
    exact (hone t g tg hg).1 ((same_noerr hu).1 _ (List.mem_of_getElem? (batch_of_same h hg ht)) _
      (List.mem_singleton.2 rfl))
  · intro hall
    have hnone : (gs.findSome? fun bs => bs.findSome? (batchErr find resample fromD.groups)) = none := by
      rw [List.findSome?_eq_none_iff]
      intro bs hbs
      obtain ⟨hl, _, he⟩ := (sameMeshGroups_ok 0 fromD.groups toD.groups gs).1 h
      obtain ⟨t, htb⟩ := List.mem_iff_getElem?.1 hbs
      have htl := (List.getElem?_eq_some_iff.1 htb).1
      rw [he] at htl
      simp at htl
      have e1 : fromD.groups[t]? = some fromD.groups[t] := List.getElem?_eq_getElem (by omega)
      have e2 : toD.groups[t]? = some (toD.groups[t]'(by omega)) := List.getElem?_eq_getElem (by omega)
      rw [batch_of_same h e1 e2, Option.some.injEq] at htb
      rw [← htb, List.findSome?_cons, (hone t _ _ e1).2 (hall t _ _ e1 e2), List.findSome?_nil]
    obtain ⟨u, hu⟩ := C23_evaluates_few (c := ⟨fromD.groups.map (SGroup.toDGroup find resample),
      toD.groups.map (SGroup.toDGroup find resample), gs, s⟩) merge ary (by
        intro bs hbs
        obtain ⟨_, _, he⟩ := (sameMeshGroups_ok 0 fromD.groups toD.groups gs).1 h
        simp only [he] at hbs
        obtain ⟨p, _, rfl⟩ := List.mem_map.1 hbs
        simp)
    refine ⟨u, ?_⟩
    simp only [SameConn.call, hnone, hu]

/-- C62: the exceptions of the connection name the reason. -/
theorem C62_raises {toD fromD : SDiscr K P} {F T : List (SGroup K P)}
    {gs : List (List (Batch (List P)))} {s : Bool}
    (hmake : makeSameMesh toD fromD = .ok (.direct F T gs s)) {merge : Bool} {ary : DofArr K}
    {err : SameErr} (hc : (SameConn.direct F T gs s).call find resample merge ary = .error err) :
    ∃ (t : Nat) (g tg : SGroup K P), fromD.groups[t]? = some g ∧ toD.groups[t]? = some tg ∧
      g.nel ≠ 0 ∧ g.nodes ≠ tg.nodes ∧
      ((err = .notUnisolvent ∧ g.basis.length ≠ g.nodes.length) ∨
       (err = .singular ∧ resample g.basis tg.nodes g.nodes = none)) := by
  obtain ⟨rfl, rfl, h⟩ := make_direct hmake
  simp only [SameConn.call] at hc
  split at hc
  · rename_i hcall
    exfalso
    obtain ⟨u, hu⟩ := C23_evaluates_few (c := ⟨fromD.groups.map (SGroup.toDGroup find resample),
      toD.groups.map (SGroup.toDGroup find resample), gs, s⟩) merge ary (by
        intro bs hbs
        obtain ⟨_, _, he⟩ := (sameMeshGroups_ok 0 fromD.groups toD.groups gs).1 h
        simp only [he] at hbs
        obtain ⟨p, _, rfl⟩ := List.mem_map.1 hbs
        simp)
    rw [hcall] at hu
    simp at hu
  · split at hc
    · rename_i e he
      simp only [Except.error.injEq] at hc
      subst hc
      obtain ⟨bs, hbs, hbe⟩ := List.exists_of_findSome?_eq_some he
      obtain ⟨b, hb, hbe⟩ := List.exists_of_findSome?_eq_some hbe
      obtain ⟨hl, _, hgs⟩ := (sameMeshGroups_ok 0 fromD.groups toD.groups gs).1 h
      obtain ⟨t, htb⟩ := List.mem_iff_getElem?.1 hbs
      have htl := (List.getElem?_eq_some_iff.1 htb).1
      rw [hgs] at htl
      simp at htl
      have e1 : fromD.groups[t]? = some fromD.groups[t] := List.getElem?_eq_getElem (by omega)
      have e2 : toD.groups[t]? = some (toD.groups[t]'(by omega)) := List.getElem?_eq_getElem (by omega)
      rw [batch_of_same h e1 e2, Option.some.injEq] at htb
      subst htb
      rw [List.mem_singleton] at hb
      subst hb
      refine ⟨t, _, _, e1, e2, ?_⟩
      unfold batchErr at hbe
      split at hbe
      · simp at hbe
      · rename_i hne
        refine ⟨fun h0 => hne (by simp [h0]), ?_⟩
        simp only [e1] at hbe
        split at hbe
        · simp at hbe
        · split at hbe
          · simp at hbe
          · rename_i er her
            simp only [Option.some.injEq] at hbe
            subst hbe
            unfold resampleMatrix at her
            split at her
            · simp at her
            · rename_i hnn
              refine ⟨hnn, ?_⟩
              split at her
              · rename_i hlen
                simp only [Except.error.injEq] at her
                exact .inl ⟨her.symm, hlen⟩
              · split at her
                · simp at her
                · rename_i hres
                  simp only [Except.error.injEq] at her
                  exact .inr ⟨her.symm, hres⟩
    · simp at hc

end

/-! ## A case -/

/-- Exact search. (Example, no code.) -/
def exactFind {P : Type} [DecidableEq P] (src tgt : List P) : List (Option Nat) := src.map fun x => tgt.idxOf? x

theorem exactFind_sound {P : Type} [DecidableEq P] : FindSound (exactFind (P := P)) := by
  intro src tgt
  unfold exactFind
  rw [List.forall₂_map_right_iff, List.forall₂_same]
  intro x _ j hj
  rw [List.idxOf?_eq_some_iff] at hj
  obtain ⟨h, h', _⟩ := hj
  rw [List.getElem?_eq_getElem h, h']

/-- Resampling that knows bases of Lagrange polynomials only. (Example, no code.) -/
def lagrangeResample {P : Type} (basis : List (P → ℚ)) (new old : List P) : Option (Mat ℚ) :=
  if vdmMatrix basis old = (List.range old.length).map fun i =>
      (List.range old.length).map fun j => if i = j then 1 else 0 then some (vdmMatrix basis new)
  else none

theorem lagrangeResample_sound {P : Type} : ResampleSound (lagrangeResample (P := P)) := by
  intro basis new old M hlen h
  unfold lagrangeResample at h
  split at h
  · rename_i hid
    simp only [Option.some.injEq] at h
    subst h
    have hval : ∀ v : List ℚ, v.length = old.length → old.map (evalAt basis v) = v := by
      intro v hv
      rw [← matVec_vandermonde, hid]
      apply List.ext_getElem
      · simp [matVec, hv]
      · intro i h1 h2
        have hvr : v = (List.range old.length).map fun j => v.getD j 0 := by
          apply List.ext_getElem
          · simp [hv]
          · intro k h3 h4
            simp [h3]
        simp only [matVec, List.map_map, List.getElem_map, List.getElem_range, Function.comp]
        conv_lhs => rw [hvr]
        rw [rowDot_eq_sum _ _ (by simp), Finset.sum_eq_single i]
        · simp [← hv, h2]
        · intro j hj hne
          simp at hj
          simp [hj, Ne.symm hne]
        · intro hn
          simp at hn
          omega
    refine ⟨by simp [vdmMatrix], ?_, ?_, ?_⟩
    · intro row hrow
      obtain ⟨x, _, rfl⟩ := List.mem_map.1 hrow
      simp [hlen]
    · intro v hv
      exact ⟨v, by omega, hval v hv, matVec_vandermonde _ _ _⟩
    · intro c c' hc hc' he
      rw [hval c (by omega), hval c' (by omega)] at he
      exact he
  · simp at h

/-- Two elements with linear functions, nodes inside. (Example, no code.) -/
def lineGroup1 : SGroup ℚ ℚ :=
  ⟨true, 2, [1 / 4, 3 / 4], [fun x => 3 / 2 - 2 * x, fun x => 2 * x - 1 / 2]⟩

/-- Two elements with quadratic functions. (Example, no code.) -/
def lineGroup2 : SGroup ℚ ℚ :=
  ⟨true, 2, [0, 1 / 2, 1],
    [fun x => (1 - x) * (1 - 2 * x), fun x => 4 * x * (1 - x), fun x => x * (2 * x - 1)]⟩

/-- Two elements with a quadrature rule of three nodes and linear functions. (Example, no code.) -/
def lineGroupQ : SGroup ℚ ℚ := ⟨true, 2, [0, 1 / 2, 1], [fun _ => 1, fun x => x]⟩

/-- Values on the two elements. (Example, no code.) -/
def lineAry : DofArr ℚ := fun _ e i => ([[1, 3], [5, -1]].getD e []).getD i 0

/-- The values of the result of a connection from one group to another. (Example, no code.) -/
def lineCall (from_ to_ : SGroup ℚ ℚ) (merge : Bool) (ary : DofArr ℚ) : Option (List ℚ) :=
  match makeSameMesh ⟨1, 7, [to_]⟩ ⟨0, 7, [from_]⟩ with
  | .ok c =>
    match c.call exactFind lagrangeResample merge ary with
    | .ok u => some ((List.range to_.nel).flatMap fun e => (List.range to_.nodes.length).map fun i => u 0 e i)
    | .error _ => none
  | .error _ => none

example : lineCall lineGroup1 lineGroup2 true lineAry = some [0, 2, 4, 8, 2, -4] := by decide +kernel

-- nodes that are found are picked, also without a unisolvent basis
example : lineCall lineGroupQ lineGroup2 true lineAry = some [1, 3, 0, 5, -1, 0] := by decide +kernel

-- the functions are reproduced by the quadratic space and come back
example : lineCall lineGroup2 lineGroup1 true
    (fun _ e i => ([[0, 2, 4], [8, 2, -4]].getD e []).getD i 0) = some [1, 3, 5, -1] := by decide +kernel

-- a rule with too many nodes cannot be interpolated from
example : lineCall lineGroupQ lineGroup1 true lineAry = none := by decide +kernel

-- the hypotheses of `C62_round_trip` hold for the linear and the quadratic group
example : Unisolvent lineGroup1 ∧ lineGroup1.nel = lineGroup2.nel ∧
    ∀ a : List ℚ, a.length = lineGroup1.basis.length → ∃ b : List ℚ, b.length = lineGroup2.basis.length ∧
      ∀ x, evalAt lineGroup2.basis b x = evalAt lineGroup1.basis a x := by
  refine ⟨?_, rfl, ?_⟩
  · intro vals
    refine ⟨[vals 0, vals 1], rfl, ?_⟩
    intro i x hx
    match i with
    | 0 =>
      simp only [lineGroup1, List.getElem?_cons_zero, Option.some.injEq] at hx
      subst hx
      simp only [lineGroup1, evalAt, List.zipWith_cons_cons, List.zipWith_nil_right, List.sum_cons,
        List.sum_nil]
      ring
    | 1 =>
      simp only [lineGroup1, List.getElem?_cons_succ, List.getElem?_cons_zero, Option.some.injEq] at hx
      subst hx
      simp only [lineGroup1, evalAt, List.zipWith_cons_cons, List.zipWith_nil_right, List.sum_cons,
        List.sum_nil]
      ring
    | i + 2 => simp [lineGroup1] at hx
  · intro a ha
    obtain ⟨p, q, rfl⟩ := List.length_eq_two.1 ha
    refine ⟨[p * (3 / 2) + q * (-1 / 2), p * (1 / 2) + q * (1 / 2), p * (-1 / 2) + q * (3 / 2)], rfl, ?_⟩
    intro x
    simp only [lineGroup1, lineGroup2, evalAt, List.zipWith_cons_cons, List.zipWith_nil_right,
      List.sum_cons, List.sum_nil]
    ring

/-- C62: in the other direction data is lost: down to the linear group and back changes the values of a
quadratic function. -/
theorem C62_down_up :
    lineCall lineGroup2 lineGroup1 true (fun _ _ i => [1, 0, 0].getD i 0) = some [3 / 8, -1 / 8, 3 / 8, -1 / 8] ∧
    lineCall lineGroup1 lineGroup2 true (fun _ _ i => [3 / 8, -1 / 8].getD i 0) =
      some [5 / 8, 1 / 8, -3 / 8, 5 / 8, 1 / 8, -3 / 8] := by
  decide +kernel

end Meshmode
