import Verif.Np
import Verif.Mesh.Types
import Verif.Mesh.Csr
import Verif.Mesh.Split

/-!
# Part maps, the graph for the partitioner, sending parts (C32, C33, C34)

meshmode/distributed.py:74-160, 404-476.
-/
namespace Meshmode

/-! ### Part maps -/

/-- `membership_list_to_map`, meshmode/distributed.py:462-475 (`sorted(unique(l))` is `np.unique`);
part identifiers are naturals. -/
def membershipToMap (ml : List Nat) : List (Nat × List Nat) :=
  (npUnique ml).map fun k => (k, npWhere (ml.map (· == k)))

theorem mem_npWhere_beq {ml : List Nat} {k i : Nat} :
    i ∈ npWhere (ml.map (· == k)) ↔ ml[i]? = some k := by
  rw [mem_npWhere, List.getElem?_map, Option.map_eq_some_iff]
  constructor
  · rintro ⟨a, h, h'⟩
    rw [h, beq_iff_eq.1 h']
  · intro h
    exact ⟨k, h, by simp⟩

/-- C33: the keys are the parts that occur, each once, in increasing order. -/
theorem C33_keys (ml : List Nat) :
    ((membershipToMap ml).map Prod.fst).Pairwise (· < ·) ∧
      ∀ k, k ∈ (membershipToMap ml).map Prod.fst ↔ k ∈ ml := by
  have : (membershipToMap ml).map Prod.fst = npUnique ml := by
    simp [membershipToMap, Function.comp_def]
  rw [this]
  exact ⟨pairwise_lt_npUnique ml, fun k => mem_npUnique⟩

/-- C33: each part has exactly the increasing list of the indices with its number. -/
theorem C33_entries {ml : List Nat} {k : Nat} {l : List Nat} (h : (k, l) ∈ membershipToMap ml) :
    l.Pairwise (· < ·) ∧ l ≠ [] ∧ ∀ i, i ∈ l ↔ ml[i]? = some k := by
  obtain ⟨k', hk, he⟩ := List.mem_map.1 h
  simp only [Prod.mk.injEq] at he
  obtain ⟨rfl, rfl⟩ := he
  refine ⟨pairwise_lt_npWhere _, ?_, fun i => mem_npWhere_beq⟩
  obtain ⟨i, hi⟩ := List.mem_iff_getElem?.1 (mem_npUnique.1 hk)
  intro hn
  have := mem_npWhere_beq.2 hi
  rw [hn] at this
  simp at this

/-- C33: every index is in exactly one part. -/
theorem C33_cover {ml : List Nat} {i : Nat} (hi : i < ml.length) :
    ∃! p, p ∈ membershipToMap ml ∧ i ∈ p.2 := by
  have h1 : ml[i]? = some ml[i] := List.getElem?_eq_getElem hi
  refine ⟨(ml[i], npWhere (ml.map (· == ml[i]))), ⟨?_, mem_npWhere_beq.2 h1⟩, ?_⟩
  · exact List.mem_map.2 ⟨ml[i], mem_npUnique.2 (List.getElem_mem hi), rfl⟩
  · rintro ⟨k, l⟩ ⟨h2, h3⟩
    have h4 := ((C33_entries h2).2.2 i).1 h3
    rw [h1, Option.some.injEq] at h4
    obtain ⟨k', _, he⟩ := List.mem_map.1 h2
    simp only [Prod.mk.injEq] at he
    obtain ⟨rfl, rfl⟩ := he
    rw [h4]

/-- C33: no index is out of range, none is lost or repeated. -/
theorem C33_partition (ml : List Nat) :
    ((membershipToMap ml).flatMap Prod.snd).Perm (List.range ml.length) := by
  rw [List.perm_ext_iff_of_nodup _ List.nodup_range]
  · intro i
    rw [List.mem_flatMap, List.mem_range]
    constructor
    · rintro ⟨⟨k, l⟩, h1, h2⟩
      exact (List.getElem?_eq_some_iff.1 (((C33_entries h1).2.2 i).1 h2)).1
    · intro h
      obtain ⟨p, h1, _⟩ := C33_cover h
      exact ⟨p, h1⟩
  · rw [List.nodup_flatMap]
    refine ⟨fun p hp => (C33_entries (k := p.1) (l := p.2) hp).1.imp (by intros; omega), ?_⟩
    have h1 : (membershipToMap ml).Pairwise fun p q => p.1 < q.1 := by
      have := (C33_keys ml).1
      rwa [List.pairwise_map] at this
    refine h1.imp_of_mem ?_
    intro p q hp hq hlt i hi hi'
    have e1 := ((C33_entries (k := p.1) (l := p.2) hp).2.2 i).1 hi
    have e2 := ((C33_entries (k := q.1) (l := q.2) hq).2.2 i).1 hi'
    rw [e1, Option.some.injEq] at e2
    omega

example : membershipToMap [2, 0, 2, 5, 0] = [(0, [1, 4]), (2, [0, 2]), (5, [3])] := by decide

/-! ### The graph handed to the partitioner -/

/-- Groups and rows of an interior adjacency group. Code: meshmode/distributed.py:435-437. -/
def Fag.interior? {A : Type} : Fag A → Option (Nat × Nat × List AdjRow)
  | .interior ig ing rows _ => some (ig, ing, rows)
  | _ => none

/-- The array built for one interior adjacency group, meshmode/distributed.py:433-436; `none` for a
group number out of range. -/
def groupPairs (bases : List Nat) (t : Nat × Nat × List AdjRow) : Option (List (Nat × Nat)) :=
  match bases[t.1]?, bases[t.2.1]? with
  | some b, some b' => some (t.2.2.map fun r => (r.el + b, r.nel + b'))
  | _, _ => none

/-- `neighbor_el_pairs`, meshmode/distributed.py:431-439.  `none`: a group number out of range, or
no interior group at all (`np.hstack([])` raises `ValueError`). -/
def neighborElPairs {A : Type} (bases : List Nat) (fags : List (List (Fag A))) :
    Option (List (Nat × Nat)) :=
  if fags.flatten.filterMap Fag.interior? = [] then none
  else ((fags.flatten.filterMap Fag.interior?).mapM (groupPairs bases)).map List.flatten

/-- What `pairs[:, np.argsort(pairs[0])]` promises; `np.argsort` is not stable by default, so the
order within equal keys is open. (Specification or proof vocabulary, no code.) -/
def SortsByFst (sort : List (Nat × Nat) → List (Nat × Nat)) : Prop :=
  ∀ l, (sort l).Perm l ∧ (sort l).Pairwise fun a b => a.1 ≤ b.1

/-- `connectivity` argument. Code: meshmode/distributed.py:428-455. -/
inductive Connectivity where
  | facial | nodal | other

/-- The CSR graph passed to `part_graph` by `get_partition_by_pymetis`,
meshmode/distributed.py:428-456; `none` if it raises. -/
def partGraph {A : Type} (sort : List (Nat × Nat) → List (Nat × Nat)) (sizes : List Nat)
    (fags : List (List (Fag A))) (nodal : List Nat × List Nat) :
    Connectivity → Option (List Nat × List Nat)
  | .facial => (neighborElPairs (baseElementNrs sizes) fags).map fun pairs =>
      let s := sort pairs
      ((List.range (nelements sizes + 1)).map (npSearchsorted (s.map Prod.fst)), s.map Prod.snd)
  | .nodal => some nodal
  | .other => none

/-- Specification: the facial neighbours of element number `e` of the mesh, one for each row of the
adjacency groups that has `e` on its own side. -/
def facialNeighbors {A : Type} (sizes : List Nat) (fags : List (List (Fag A))) (e : Nat) :
    List Nat :=
  fags.flatten.flatMap fun f => match f with
    | .interior ig ing rows _ => rows.filterMap fun r =>
        if (sizes.take ig).sum + r.el = e then some ((sizes.take ing).sum + r.nel) else none
    | _ => []

/-- Adjacency refers to groups and elements of the mesh.
(Specification or proof vocabulary, no code.) -/
def FagsIn {A : Type} (sizes : List Nat) (fags : List (List (Fag A))) : Prop :=
  ∀ f ∈ fags.flatten, ∀ ig ing rows aff, f = Fag.interior ig ing rows aff →
    ig < sizes.length ∧ ing < sizes.length ∧ ∀ r ∈ rows, ∀ n, sizes[ig]? = some n → r.el < n

theorem sorted_split {l : List (Nat × Nat)} (h : l.Pairwise fun a b => a.1 ≤ b.1) (i : Nat) :
    l = (l.filter fun p => decide (p.1 < i)) ++ l.filter fun p => decide (¬ p.1 < i) := by
  induction l with
  | nil => rfl
  | cons a l ih =>
    obtain ⟨h1, h2⟩ := List.pairwise_cons.1 h
    by_cases ha : a.1 < i
    · simp only [List.filter_cons, ha, decide_true, if_true, not_true, decide_false,
        Bool.false_eq_true, if_false, List.cons_append]
      conv_lhs => rw [ih h2]
    · have e1 : l.filter (fun p => decide (p.1 < i)) = [] := by
        rw [List.filter_eq_nil_iff]
        intro p hp
        have := h1 p hp
        simp
        omega
      have e2 : l.filter (fun p => decide (¬ p.1 < i)) = l := by
        rw [List.filter_eq_self]
        intro p hp
        have := h1 p hp
        simp
        omega
      simp only [List.filter_cons, ha, decide_false, Bool.false_eq_true, if_false, not_false_eq_true,
        decide_true, if_true, e1, e2, List.nil_append]

theorem searchsorted_fst (l : List (Nat × Nat)) (i : Nat) :
    npSearchsorted (l.map Prod.fst) i = (l.filter fun p => decide (p.1 < i)).length := by
  rw [npSearchsorted, List.countP_map, List.countP_eq_length_filter]
  rfl

theorem sorted_row {l : List (Nat × Nat)} (h : l.Pairwise fun a b => a.1 ≤ b.1) (i : Nat) :
    (l.drop (npSearchsorted (l.map Prod.fst) i)).take
      (npSearchsorted (l.map Prod.fst) (i+1) - npSearchsorted (l.map Prod.fst) i) =
    l.filter fun p => decide (p.1 = i) := by
  have hd : l.drop (npSearchsorted (l.map Prod.fst) i) = l.filter fun p => decide (¬ p.1 < i) := by
    rw [searchsorted_fst]
    conv_lhs => rw [sorted_split h i]
    rw [List.drop_append_of_le_length (by rw [← sorted_split h i])]
    rw [List.drop_eq_nil_of_le (by rw [← sorted_split h i]), List.nil_append]
  have hm := sorted_split (h.filter fun p => decide (¬ p.1 < i)) (i+1)
  have hlen : npSearchsorted (l.map Prod.fst) (i+1) - npSearchsorted (l.map Prod.fst) i =
      ((l.filter fun p => decide (¬ p.1 < i)).filter fun p => decide (p.1 < i+1)).length := by
    rw [searchsorted_fst, searchsorted_fst]
    have : (l.filter fun p => decide (p.1 < i+1)).length =
        (l.filter fun p => decide (p.1 < i)).length +
        ((l.filter fun p => decide (¬ p.1 < i)).filter fun p => decide (p.1 < i+1)).length := by
      conv_lhs => rw [sorted_split h i, List.filter_append, List.length_append]
      congr 2
      rw [List.filter_filter]
      apply List.filter_congr
      intro p _
      by_cases hp : p.1 < i
      · simp [hp]; omega
      · simp [hp]
    omega
  rw [hd, hlen]
  conv_lhs => rw [hm]
  rw [List.take_append_of_le_length (by rw [← hm]), List.take_of_length_le (by rw [← hm]),
    List.filter_filter]
  apply List.filter_congr
  intro p _
  by_cases hp : p.1 = i
  · simp [hp]
  · simp only [hp, decide_false, Bool.and_eq_false_iff, decide_eq_false_iff_not]
    omega

theorem mapM_pairs_neighbors {A : Type} {sizes : List Nat} (fl : List (Fag A))
    (hin : ∀ f ∈ fl, ∀ ig ing rows aff, f = Fag.interior ig ing rows aff →
      ig < sizes.length ∧ ing < sizes.length) :
    ∃ L, (fl.filterMap Fag.interior?).mapM (groupPairs (baseElementNrs sizes)) = some L ∧
      ∀ e, (L.flatten.filter fun p => decide (p.1 = e)).map Prod.snd =
        facialNeighbors sizes [fl] e := by
  induction fl with
  | nil => exact ⟨[], rfl, fun e => rfl⟩
  | cons f fl ih =>
    obtain ⟨L, hL, h⟩ := ih fun f hf => hin f (List.mem_cons_of_mem _ hf)
    have step : ∀ e, facialNeighbors sizes [f :: fl] e =
        facialNeighbors sizes [[f]] e ++ facialNeighbors sizes [fl] e := by
      intro e; simp [facialNeighbors]
    match f with
    | .boundary a b c =>
      refine ⟨L, hL, fun e => ?_⟩
      rw [h e, step]
      simp [facialNeighbors]
    | .interPart a b c d e' =>
      refine ⟨L, hL, fun e => ?_⟩
      rw [h e, step]
      simp [facialNeighbors]
    | .interior ig ing rows aff =>
      obtain ⟨h1, h2⟩ := hin _ List.mem_cons_self ig ing rows aff rfl
      refine ⟨(rows.map fun r => (r.el + (sizes.take ig).sum, r.nel + (sizes.take ing).sum)) :: L,
        ?_, fun e => ?_⟩
      · have hg : groupPairs (baseElementNrs sizes) (ig, ing, rows) =
            some (rows.map fun r => (r.el + (sizes.take ig).sum, r.nel + (sizes.take ing).sum)) := by
          simp only [groupPairs, baseElementNrs_getElem? sizes ig h1,
            baseElementNrs_getElem? sizes ing h2]
        rw [List.filterMap_cons_some (f := Fag.interior?) (b := (ig, ing, rows)) rfl, List.mapM_cons,
          hg, hL]
        rfl
      · rw [List.flatten_cons, List.filter_append, List.map_append, h e, step]
        congr 1
        simp only [facialNeighbors, List.flatten_cons, List.flatten_nil, List.append_nil,
          List.flatMap_cons, List.flatMap_nil]
        clear hin ih step
        induction rows with
        | nil => rfl
        | cons r rows ih =>
          simp only [List.map_cons, List.filter_cons, List.filterMap_cons]
          by_cases hr : (sizes.take ig).sum + r.el = e
          · have hr' : r.el + (sizes.take ig).sum = e := by omega
            simp only [hr, hr', decide_true, if_true, List.map_cons, ih, Nat.add_comm]
          · have hr' : ¬ r.el + (sizes.take ig).sum = e := by omega
            simp only [hr, hr', decide_false, Bool.false_eq_true, if_false, ih]

theorem neighborElPairs_spec {A : Type} {sizes : List Nat} {fags : List (List (Fag A))}
    (hin : FagsIn sizes fags) {pairs : List (Nat × Nat)}
    (h : neighborElPairs (baseElementNrs sizes) fags = some pairs) (e : Nat) :
    (pairs.filter fun p => decide (p.1 = e)).map Prod.snd = facialNeighbors sizes fags e := by
  unfold neighborElPairs at h
  split at h
  · simp at h
  · obtain ⟨L, h1, h2⟩ := mapM_pairs_neighbors fags.flatten
      fun f hf ig ing rows aff hfe => ⟨(hin f hf ig ing rows aff hfe).1, (hin f hf ig ing rows aff hfe).2.1⟩
    rw [h1] at h
    simp only [Option.map_some, Option.some.injEq] at h
    rw [← h, h2 e]
    simp [facialNeighbors]

/-- Every facial neighbour entry belongs to an element of the mesh. -/
theorem facialNeighbors_range {A : Type} {sizes : List Nat} {fags : List (List (Fag A))}
    (hin : FagsIn sizes fags) {e : Nat} (he : nelements sizes ≤ e) :
    facialNeighbors sizes fags e = [] := by
  unfold facialNeighbors
  rw [List.flatMap_eq_nil_iff]
  intro f hf
  match f with
  | .boundary .. => rfl
  | .interPart .. => rfl
  | .interior ig ing rows aff =>
    obtain ⟨h1, h2, h3⟩ := hin _ hf ig ing rows aff rfl
    simp only [List.filterMap_eq_nil_iff]
    intro r hr
    rw [if_neg]
    have hs : sizes[ig]? = some sizes[ig] := List.getElem?_eq_getElem h1
    have h4 := h3 r hr _ hs
    have h5 : (sizes.take (ig+1)).sum ≤ sizes.sum := by
      conv_rhs => rw [← List.take_append_drop (ig+1) sizes, List.sum_append]
      omega
    rw [List.take_succ_eq_append_getElem h1] at h5
    simp only [List.sum_append, List.sum_cons, List.sum_nil] at h5
    unfold nelements at he
    omega

/-- C34: the graph is a valid CSR structure with one row per element. -/
theorem C34_valid {A : Type} {sort : List (Nat × Nat) → List (Nat × Nat)} (hs : SortsByFst sort)
    {sizes : List Nat} {fags : List (List (Fag A))} (hin : FagsIn sizes fags)
    {nodal : List Nat × List Nat} {starts adj : List Nat}
    (h : partGraph sort sizes fags nodal .facial = some (starts, adj)) :
    CsrValid starts adj (nelements sizes) := by
  simp only [partGraph, Option.map_eq_some_iff, Prod.mk.injEq] at h
  obtain ⟨pairs, hp, rfl, rfl⟩ := h
  have hlt : ∀ p ∈ sort pairs, p.1 < nelements sizes := by
    intro p hpm
    by_contra hc
    have h1 := neighborElPairs_spec hin hp p.1
    rw [facialNeighbors_range hin (by omega), List.map_eq_nil_iff, List.filter_eq_nil_iff] at h1
    exact h1 p ((hs pairs).1.mem_iff.1 hpm) (by simp)
  refine ⟨by simp, ?_, ?_, ?_⟩
  · simp [npSearchsorted]
  · rw [List.getElem?_map, List.getElem?_range (by omega)]
    simp only [Option.map_some, searchsorted_fst, List.length_map, Option.some.injEq]
    congr 1
    rw [List.filter_eq_self]
    intro p hpm
    simpa using hlt p hpm
  · intro i a b ha hb
    rw [List.getElem?_map, Option.map_eq_some_iff] at ha hb
    obtain ⟨i', hi, rfl⟩ := ha
    obtain ⟨j', hj, rfl⟩ := hb
    obtain ⟨_, hi'⟩ := List.getElem?_eq_some_iff.1 hi
    obtain ⟨_, hj'⟩ := List.getElem?_eq_some_iff.1 hj
    rw [List.getElem_range] at hi' hj'
    subst hi'
    subst hj'
    unfold npSearchsorted
    apply List.countP_mono_left
    intro x _ hx
    simp only [decide_eq_true_eq] at hx ⊢
    omega

/-- C34: the row of an element lists exactly its facial neighbours, as often as there are faces
between them; their order is left open by the sorting. -/
theorem C34_rows {A : Type} {sort : List (Nat × Nat) → List (Nat × Nat)} (hs : SortsByFst sort)
    {sizes : List Nat} {fags : List (List (Fag A))} (hin : FagsIn sizes fags)
    {nodal : List Nat × List Nat} {starts adj : List Nat}
    (h : partGraph sort sizes fags nodal .facial = some (starts, adj)) {e : Nat}
    (he : e < nelements sizes) :
    ∃ row, csrRow starts adj e = some row ∧ row.Perm (facialNeighbors sizes fags e) := by
  simp only [partGraph, Option.map_eq_some_iff, Prod.mk.injEq] at h
  obtain ⟨pairs, hp, rfl, rfl⟩ := h
  refine ⟨((sort pairs).filter fun p => decide (p.1 = e)).map Prod.snd, ?_, ?_⟩
  · unfold csrRow
    simp only [List.getElem?_map, List.getElem?_range (show e < nelements sizes + 1 by omega),
      List.getElem?_range (show e + 1 < nelements sizes + 1 by omega), Option.map_some,
      Option.bind_eq_bind, Option.bind_some, Option.pure_def, Option.some.injEq]
    rw [← List.map_drop, ← List.map_take, sorted_row (hs pairs).2]
  · rw [← neighborElPairs_spec hin hp e]
    exact ((hs pairs).1.filter _).map _

/-- C34: the graph is built exactly when there is an interior adjacency group. -/
theorem C34_defined {A : Type} {sort : List (Nat × Nat) → List (Nat × Nat)} {sizes : List Nat}
    {fags : List (List (Fag A))} (hin : FagsIn sizes fags) {nodal : List Nat × List Nat} :
    (partGraph sort sizes fags nodal .facial).isSome ↔
      ∃ f ∈ fags.flatten, f.interior?.isSome := by
  simp only [partGraph, Option.isSome_map]
  unfold neighborElPairs
  obtain ⟨L, h1, _⟩ := mapM_pairs_neighbors fags.flatten
    fun f hf ig ing rows aff hfe => ⟨(hin f hf ig ing rows aff hfe).1, (hin f hf ig ing rows aff hfe).2.1⟩
  rw [h1]
  split
  · rename_i h
    rw [List.filterMap_eq_nil_iff] at h
    simp only [Option.isSome_none, Bool.false_eq_true, false_iff]
    rintro ⟨f, hf, hs⟩
    rw [h f hf] at hs
    simp at hs
  · rename_i h
    simp only [Option.map_some, Option.isSome_some, true_iff]
    by_contra hc
    push Not at hc
    apply h
    rw [List.filterMap_eq_nil_iff]
    intro f hf
    simpa using hc f hf

/-- With `connectivity="nodal"` the nodal adjacency is passed on. -/
theorem C34_nodal {A : Type} (sort : List (Nat × Nat) → List (Nat × Nat)) (sizes : List Nat)
    (fags : List (List (Fag A))) (nodal : List Nat × List Nat) :
    partGraph sort sizes fags nodal .nodal = some nodal ∧
    partGraph sort sizes fags nodal .other = none := ⟨rfl, rfl⟩

/-- Two groups (two and one elements), three elements in a row. -/
def exGraphFags : List (List (Fag Nat)) :=
  [[.interior 0 0 [⟨0, 1, 1, 0⟩, ⟨1, 0, 0, 1⟩] 0, .interior 0 1 [⟨1, 1, 0, 0⟩] 0,
    .boundary 0 .all [⟨0, 0⟩]], [.interior 1 0 [⟨0, 0, 1, 1⟩] 0]]

theorem exGraph_in : FagsIn [2, 1] exGraphFags := by
  intro f hf ig ing rows aff he
  subst he
  simp only [exGraphFags, List.flatten_cons, List.flatten_nil, List.append_nil, List.cons_append,
    List.nil_append, List.mem_cons, List.not_mem_nil, Fag.interior.injEq, reduceCtorEq, or_false,
    false_or] at hf
  rcases hf with ⟨rfl, rfl, rfl, rfl⟩ | ⟨rfl, rfl, rfl, rfl⟩ | ⟨rfl, rfl, rfl, rfl⟩ <;> decide

theorem stableSort_sortsByFst : SortsByFst (stableSort fun a b => decide (a.1 ≤ b.1)) := by
  intro l
  refine ⟨stableSort_perm _ _, ?_⟩
  have := pairwise_stableSort (le := fun a b : Nat × Nat => decide (a.1 ≤ b.1))
    (by intro a b c; simp only [decide_eq_true_eq]; omega)
    (by intro a b; simp only [Bool.or_eq_true, decide_eq_true_eq]; omega) l
  simpa using this

example : partGraph (stableSort fun a b => decide (a.1 ≤ b.1)) [2, 1] exGraphFags ([], []) .facial =
    some ([0, 1, 3, 4], [1, 0, 2, 1]) := by decide

/-! ### Sending parts -/

/-- `send_mesh_parts`, meshmode/distributed.py:101-136: the part kept and the messages
(destination, part).  `mk` is `partition_mesh` (an error in it, or a part number beyond the number
of ranks, is not modelled). -/
def sendMeshParts {P : Type} (mk : Nat → List Nat → P) (manager : Nat) (ml : List Nat) :
    Option P × List (Nat × P) :=
  let parts := (membershipToMap ml).map fun p => (p.1, mk p.1 p.2)
  (parts.lookup manager, parts.filter fun p => p.1 != manager)

/-- `receive_mesh_part`, meshmode/distributed.py:138-154: the first message for this rank; `none` if
there never is one, so that the call waits forever. -/
def receiveMeshPart {P : Type} (msgs : List (Nat × P)) (rank : Nat) : Option P := msgs.lookup rank

theorem lookup_map_membership {P : Type} (mk : Nat → List Nat → P) (ml : List Nat) (r : Nat) :
    ((membershipToMap ml).map fun p => (p.1, mk p.1 p.2)).lookup r =
      if r ∈ ml then some (mk r (npWhere (ml.map (· == r)))) else none := by
  have : (membershipToMap ml).map (fun p => (p.1, mk p.1 p.2)) =
      (npUnique ml).map fun k => (k, mk k (npWhere (ml.map (· == k)))) := by
    rw [membershipToMap, List.map_map]; rfl
  rw [this]
  have key : ∀ l : List Nat, (l.map fun k => (k, mk k (npWhere (ml.map (· == k))))).lookup r =
      if r ∈ l then some (mk r (npWhere (ml.map (· == r)))) else none := by
    intro l
    induction l with
    | nil => rfl
    | cons a l ih =>
      rw [List.map_cons, List.lookup_cons, ih]
      by_cases h : r = a
      · subst h; simp
      · have : (r == a) = false := by simpa using h
        simp [this, h]
  rw [key]
  simp [mem_npUnique]

/-- C32, partial: a rank other than the manager gets the part with its number if some element is in
that part, and waits forever otherwise; the manager keeps its own part, or `None`. -/
theorem C32_receives_iff_partial {P : Type} (mk : Nat → List Nat → P) (manager : Nat)
    (ml : List Nat) (r : Nat) (hr : r ≠ manager) :
    ((receiveMeshPart (sendMeshParts mk manager ml).2 r).isSome ↔ r ∈ ml) ∧
    (∀ p, receiveMeshPart (sendMeshParts mk manager ml).2 r = some p →
      p = mk r (npWhere (ml.map (· == r)))) ∧
    ((sendMeshParts mk manager ml).1.isSome ↔ manager ∈ ml) ∧
    (∀ p, (sendMeshParts mk manager ml).1 = some p →
      p = mk manager (npWhere (ml.map (· == manager)))) := by
  have hl : receiveMeshPart (sendMeshParts mk manager ml).2 r =
      ((membershipToMap ml).map fun p => (p.1, mk p.1 p.2)).lookup r := by
    simp only [receiveMeshPart, sendMeshParts]
    generalize ((membershipToMap ml).map fun p => (p.1, mk p.1 p.2)) = l
    induction l with
    | nil => rfl
    | cons a l ih =>
      by_cases h : a.1 = manager
      · have h1 : (r == manager) = false := by simpa using hr
        rw [List.filter_cons, List.lookup_cons (k := a.1) (b := a.2)]
        simp [h, h1, ih]
      · obtain ⟨k, v⟩ := a
        simp only at h
        simp [h, List.lookup_cons, ih]
  rw [hl, lookup_map_membership]
  simp only [sendMeshParts, lookup_map_membership]
  refine ⟨by simp, ?_, by simp, ?_⟩
  · intro p hp
    split at hp
    · simpa using hp.symm
    · simp at hp
  · intro p hp
    split at hp
    · simpa using hp.symm
    · simp at hp

/-- C32: every message goes to a rank that is not the manager, and each rank gets at most one. -/
theorem C32_messages {P : Type} (mk : Nat → List Nat → P) (manager : Nat) (ml : List Nat) :
    ((sendMeshParts mk manager ml).2.map Prod.fst).Nodup ∧
    ∀ m ∈ (sendMeshParts mk manager ml).2, m.1 ≠ manager ∧ m.1 ∈ ml := by
  constructor
  · have h1 : ((sendMeshParts mk manager ml).2.map Prod.fst).Sublist
        ((membershipToMap ml).map Prod.fst) := by
      refine (List.Sublist.map _ List.filter_sublist).trans ?_
      rw [List.map_map]
      exact List.Sublist.refl _
    exact ((C33_keys ml).1.imp (by intros; omega)).sublist h1
  · intro m hm
    obtain ⟨h1, h2⟩ := List.mem_filter.1 hm
    refine ⟨by simpa using h2, ?_⟩
    obtain ⟨p, hp, rfl⟩ := List.mem_map.1 h1
    exact ((C33_keys ml).2 p.1).1 (List.mem_map.2 ⟨p, hp, rfl⟩)

/-- A part without elements: with two parts, all elements in part 0, rank 1 waits forever. -/
theorem C32_empty_part_counterexample :
    receiveMeshPart (sendMeshParts (fun k l => (k, l)) 0 [0, 0, 0]).2 1 = none := by decide

example : sendMeshParts (fun k l => (k, l)) 1 [0, 2, 1, 0] =
    (some (1, [2]), [(0, (0, [0, 3])), (2, (2, [1]))]) := by decide

end Meshmode
