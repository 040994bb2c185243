import Verif.Connection.Chained
import Verif.Mesh.Split
import Verif.Refine.Vertices
import Mathlib.Tactic.IntervalCases
import Mathlib.Tactic.FinCases

/-!
# Flattening chained connections (C26)

meshmode/discretization/connection/chained.py:78-264.
-/
namespace Meshmode

open Finset

variable {R U : Type}

/-- Geometry used by `_build_new_group_table`
(meshmode/discretization/connection/chained.py:118-132): the unit nodes of the composition (source
group and nodes of the first batch, source group and nodes of the second), and `np.allclose`. -/
structure NodeOps (R U : Type) where
  compose : DGroup R U → U → DGroup R U → U → U
  close : U → U → Bool

/-- `_iterbatches`, meshmode/discretization/connection/chained.py:85-88. -/
def iterBatches (groups : List (List (Batch U))) : List (Nat × Batch U) :=
  groups.zipIdx.flatMap fun p => p.1.map fun b => (p.2, b)

/-- `_build_element_lookup_table`, meshmode/discretization/connection/chained.py:91-99: `none` is
-1. -/
def elTable (groups : List (List (Batch U))) (igrp e : Nat) : Option Nat :=
  (groups.getD igrp []).reverse.findSome? fun b => b.source e

/-- `_ConnectionBatchData`, meshmode/discretization/connection/chained.py:78-82. -/
structure BatchInfo (U : Type) where
  nodes : U
  fromGroup : Nat
  face : Option Nat

/-- `find_batch`, meshmode/discretization/connection/chained.py:103-108. -/
def findBatch (close : U → U → Bool) (nodes : U) (info : List (List (BatchInfo U))) :
    Option (Nat × Nat) :=
  info.zipIdx.findSome? fun p =>
    p.1.zipIdx.findSome? fun q => if close nodes q.1.nodes then some (p.2, q.2) else none

/-- Pairs of batches in the order of the two nested loops.
Code: meshmode/discretization/connection/chained.py:102-148. -/
def batchQuads (f t : List (List (Batch U))) : List ((Nat × Batch U) × (Nat × Batch U)) :=
  (iterBatches f).flatMap fun p => (iterBatches t).map fun q => (p, q)

/-- One step of `_build_new_group_table`,
meshmode/discretization/connection/chained.py:118-146: where the pair goes, and the new table.
`IndexError` (`none`) for a group number out of range. -/
def placeQuad (ops : NodeOps R U) (fD tD : List (DGroup R U)) (nto : Nat)
    (q : (Nat × Batch U) × (Nat × Batch U)) (info : List (List (BatchInfo U))) :
    Option ((Nat × Nat) × List (List (BatchInfo U))) :=
  match fD[q.1.2.fromGroup]?, tD[q.2.2.fromGroup]? with
  | some ff, some tf =>
    let u := ops.compose ff q.1.2.nodes tf q.2.2.nodes
    match findBatch ops.close u info with
    | some p => some (p, info)
    | none =>
      let ig := nto * q.1.1 + q.2.1
      some ((ig, (info.getD ig []).length),
        info.modify ig (· ++ [⟨u, q.1.2.fromGroup, q.2.2.face⟩]))
  | _, _ => none

/-- The loops of `_build_new_group_table`: the places of all pairs of batches, in order (the
dictionary `grp_to_grp`), and the table of new batches.
Code: meshmode/discretization/connection/chained.py:102-148. -/
def placeQuads (ops : NodeOps R U) (fD tD : List (DGroup R U)) (nto : Nat) :
    List ((Nat × Batch U) × (Nat × Batch U)) → List (List (BatchInfo U)) →
    Option (List (Nat × Nat) × List (List (BatchInfo U)))
  | [], info => some ([], info)
  | q :: qs, info =>
    match placeQuad ops fD tD nto q info with
    | none => none
    | some (p, info') =>
      match placeQuads ops fD tD nto qs info' with
      | none => none
      | some (ps, info'') => some (p :: ps, info'')

/-- The elements a pair of batches hands on: (source element, target element), for the entries of
the second batch whose source is a target of the first,
meshmode/discretization/connection/chained.py:225-245. -/
def quadPairs (f : List (List (Batch U))) (q : (Nat × Batch U) × (Nat × Batch U)) :
    List (Nat × Nat) :=
  ((q.2.2.fromEls.zip q.2.2.toEls).filter fun p => q.1.2.toEls.contains p.1).map fun p =>
    ((elTable f q.1.1 p.1).getD 0, p.2)

/-- One round of the loop in `flatten_chained_connection`,
meshmode/discretization/connection/chained.py:224-262. -/
def mergeConn (ops : NodeOps R U) (surj : Bool) (f t : DirectConn R U) :
    Option (DirectConn R U) :=
  match placeQuads ops f.fromD t.fromD t.groups.length (batchQuads f.groups t.groups)
      (List.replicate (f.groups.length * t.groups.length) []) with
  | none => none
  | some (places, info) =>
    some ⟨f.fromD, t.toD, info.zipIdx.map fun g => g.1.zipIdx.map fun b =>
      let pairs := (((batchQuads f.groups t.groups).zip places).filter fun x =>
        x.2 == (g.2, b.2)).flatMap fun x => quadPairs f.groups x.1
      ⟨b.1.fromGroup, pairs.map Prod.fst, pairs.map Prod.snd, b.1.nodes, b.1.face⟩, surj⟩

/-- The loop over the remaining direct connections.
Code: meshmode/discretization/connection/chained.py:225-262. -/
def mergeAll (ops : NodeOps R U) (surj : Bool) :
    DirectConn R U → List (DirectConn R U) → Option (DirectConn R U)
  | f, [] => some f
  | f, t :: ts => (mergeConn ops surj f t).bind fun m => mergeAll ops surj m ts

/-- `isinstance(conn, IdentityDiscretizationConnection)` is dropped.
Code: meshmode/discretization/connection/chained.py:218-222. -/
def Conn.direct? : Conn R U → Option (DirectConn R U)
  | .direct c => some c
  | _ => none

mutual
/-- `flatten_chained_connection`, meshmode/discretization/connection/chained.py:166-264; `none` if it
raises (`IndexError` when only identities are left).  For an empty chain
`make_same_mesh_connection` returns the identity, as both discretizations are the same object
(meshmode/discretization/connection/same_mesh.py:43-61). -/
def Conn.flatten (ops : NodeOps R U) : Conn R U → Option (Conn R U)
  | .direct c => some (.direct c)
  | .ident D => some (.ident D)
  | .chained [] f _ _ => some (.ident f)
  | .chained (c :: cs) _ _ s =>
    (Conn.flatten ops c).bind fun c' => (Conn.flattenList ops cs).bind fun cs' =>
      match (c' :: cs').filterMap Conn.direct? with
      | [] => none
      | d :: ds => (mergeAll ops s d ds).map .direct

/-- The list comprehension. Code: meshmode/discretization/connection/chained.py:218-222. -/
def Conn.flattenList (ops : NodeOps R U) : List (Conn R U) → Option (List (Conn R U))
  | [] => some []
  | c :: cs => (Conn.flatten ops c).bind fun c' => (Conn.flattenList ops cs).map (c' :: ·)
end

variable [CommRing R]

/-! ### Connections that set every target element at most once -/

/-- Pairs (target, source) of a batch. (Specification or proof vocabulary, no code.) -/
def Batch.pairs (b : Batch U) : List (Nat × Nat) := b.toEls.zip b.fromEls

omit [CommRing R] in
theorem source_of_mem {b : Batch U} (hn : b.toEls.Nodup) {e f : Nat} (h : (e, f) ∈ b.pairs) :
    b.source e = some f := by
  obtain ⟨i, hi⟩ := List.mem_iff_getElem?.1 h
  obtain ⟨h1, h2⟩ := List.getElem?_zip_eq_some.1 hi
  exact lookup_reverse_zip hn h1 h2

omit [CommRing R] in
theorem pairs_of_source {b : Batch U} {e f : Nat} (h : b.source e = some f) :
    (e, f) ∈ b.pairs := by
  obtain ⟨l1, l2, he, _⟩ := List.lookup_eq_some_iff.1 h
  exact List.mem_reverse.1 (by
    show (e, f) ∈ (b.toEls.zip b.fromEls).reverse
    rw [he]; simp)

/-- With distinct targets over all batches, only one batch contributes to an element. -/
theorem interp_sum_of_mem {fromD : List (DGroup R U)} {bs : List (Batch U)}
    (hn : (bs.flatMap Batch.toEls).Nodup) {b : Batch U} (hb : b ∈ bs) {e f : Nat}
    (he : (e, f) ∈ b.pairs) {g : DGroup R U} (hg : fromD[b.fromGroup]? = some g) (ary : DofArr R)
    (i : Nat) : (bs.map fun b => interpEval fromD ary b e i).sum =
      ∑ j ∈ range g.ndof, g.mat b.nodes i j * ary b.fromGroup f j := by
  obtain ⟨l1, l2, rfl⟩ := List.append_of_mem hb
  have hem := (List.of_mem_zip he).1
  rw [List.flatMap_append, List.flatMap_cons, List.nodup_append, List.nodup_append] at hn
  obtain ⟨_, ⟨hbn, _, h2⟩, h1⟩ := hn
  have z1 : ∀ x ∈ l1, interpEval fromD ary x e i = 0 := by
    intro x hx
    unfold interpEval
    cases hs : x.source e with
    | none => rfl
    | some f' =>
      exact absurd rfl (h1 e (List.mem_flatMap.2 ⟨x, hx, (batch_source_mem hs).1⟩) e (by simp [hem]))
  have z2 : ∀ x ∈ l2, interpEval fromD ary x e i = 0 := by
    intro x hx
    unfold interpEval
    cases hs : x.source e with
    | none => rfl
    | some f' =>
      exact absurd rfl (h2 e hem e (List.mem_flatMap.2 ⟨x, hx, (batch_source_mem hs).1⟩))
  rw [List.map_append, List.map_cons, List.sum_append, List.sum_cons,
    List.map_congr_left z1, List.map_congr_left z2]
  simp [interpEval, source_of_mem hbn he, hg]

theorem interp_sum_none {fromD : List (DGroup R U)} {bs : List (Batch U)} {e : Nat}
    (he : e ∉ bs.flatMap Batch.toEls) (ary : DofArr R) (i : Nat) :
    (bs.map fun b => interpEval fromD ary b e i).sum = 0 := by
  have : ∀ b ∈ bs, interpEval fromD ary b e i = 0 := by
    intro b hb
    unfold interpEval
    cases hs : b.source e with
    | none => rfl
    | some f => exact absurd (List.mem_flatMap.2 ⟨b, hb, (batch_source_mem hs).1⟩) he
  rw [List.map_congr_left this]
  simp

/-- One group on both sides, every target element set at most once.
(Specification or proof vocabulary, no code.) -/
structure OneGroup (c : DirectConn R U) (F T : DGroup R U) (bs : List (Batch U)) : Prop where
  fromD : c.fromD = [F]
  toD : c.toD = [T]
  groups : c.groups = [bs]
  distinct : (bs.flatMap Batch.toEls).Nodup

/-- Interpolation is exact among the groups in `S` for the unit nodes that `P` allows between them:
composing nodes gives nodes that are allowed again, and interpolating from `F` through `M` to nodes
of `T` is the same as directly to the composed nodes, or to nodes that are taken to be the same.
(Specification or proof vocabulary, no code.) -/
structure ExactNodes (ops : NodeOps R U) (S : DGroup R U → Prop)
    (P : DGroup R U → DGroup R U → U → Prop) : Prop where
  sound : ∀ F, S F → PickSound F
  pick : ∀ F T, S F → S T → ∀ w, P F T w → ∀ I, F.pick w = some I → I.length = T.ndof
  comp : ∀ F M T, S F → S M → S T → ∀ u v, P F M u → P M T v → P F T (ops.compose F u M v)
  exact : ∀ F M T, S F → S M → S T → ∀ u v w, P F M u → P M T v → P F T w →
    (w = ops.compose F u M v ∨ ops.close (ops.compose F u M v) w = true) →
    ∀ i < T.ndof, ∀ k < F.ndof, F.mat w i k = ∑ j ∈ range M.ndof, M.mat v i j * F.mat u j k

/-- What a connection does, as a sum over batches (this is the value of `__call__`, `C23_value`).
(Specification or proof vocabulary, no code.) -/
def DirectConn.interp (c : DirectConn R U) (a : DofArr R) : DofArr R := fun g e i =>
  match c.groups[g]? with
  | some bs => (bs.map fun b => interpEval c.fromD a b e i).sum
  | none => 0

/-! ### One round -/

omit [CommRing R] in
theorem findBatch_single {close : U → U → Bool} {u : U} {info : List (BatchInfo U)} {p : Nat × Nat}
    (h : findBatch close u [info] = some p) :
    p.1 = 0 ∧ ∃ x, info[p.2]? = some x ∧ close u x.nodes = true := by
  obtain ⟨l1, a, l2, h1, h2, _⟩ := List.findSome?_eq_some_iff.1 h
  have ha : a = (info, 0) := by
    have : a ∈ [info].zipIdx := by rw [h1]; simp
    simpa using this
  subst ha
  obtain ⟨m1, b, m2, h3, h4, _⟩ := List.findSome?_eq_some_iff.1 h2
  have hb : b ∈ info.zipIdx := by rw [h3]; simp
  split at h4
  · rename_i hc
    simp only [Option.some.injEq] at h4
    subst h4
    exact ⟨rfl, b.1, List.mem_zipIdx_iff_getElem?.1 hb, hc⟩
  · simp at h4

/-- What the table of new batches says about a pair placed in it.
(Specification or proof vocabulary, no code.) -/
def PlaceOK (ops : NodeOps R U) (F M : DGroup R U) (info : List (BatchInfo U))
    (q : (Nat × Batch U) × (Nat × Batch U)) (p : Nat × Nat) : Prop :=
  p.1 = 0 ∧ ∃ x, info[p.2]? = some x ∧ (x.nodes = ops.compose F q.1.2.nodes M q.2.2.nodes ∨
    ops.close (ops.compose F q.1.2.nodes M q.2.2.nodes) x.nodes = true)

omit [CommRing R] in
theorem placeQuads_single {ops : NodeOps R U} {F M : DGroup R U} {W : U → Prop}
    {qs : List ((Nat × Batch U) × (Nat × Batch U))} {info : List (BatchInfo U)}
    {info' : List (List (BatchInfo U))} {ps : List (Nat × Nat)}
    (hq : ∀ q ∈ qs, q.1.1 = 0 ∧ q.2.1 = 0 ∧ q.1.2.fromGroup = 0 ∧ q.2.2.fromGroup = 0)
    (hW : ∀ q ∈ qs, W (ops.compose F q.1.2.nodes M q.2.2.nodes))
    (hi : ∀ x ∈ info, x.fromGroup = 0 ∧ W x.nodes)
    (h : placeQuads ops [F] [M] 1 qs [info] = some (ps, info')) :
    ∃ inf, info' = [inf] ∧ info <+: inf ∧ (∀ x ∈ inf, x.fromGroup = 0 ∧ W x.nodes) ∧
      ps.length = qs.length ∧ ∀ x ∈ qs.zip ps, PlaceOK ops F M inf x.1 x.2 := by
  induction qs generalizing info ps with
  | nil =>
    simp only [placeQuads, Option.some.injEq, Prod.mk.injEq] at h
    obtain ⟨rfl, rfl⟩ := h
    exact ⟨info, rfl, List.prefix_refl _, hi, rfl, by simp⟩
  | cons q qs ih =>
    simp only [placeQuads] at h
    split at h
    · simp at h
    · rename_i p info1 hp
      split at h
      · simp at h
      · rename_i ps' info2 hps
        simp only [Option.some.injEq, Prod.mk.injEq] at h
        obtain ⟨rfl, rfl⟩ := h
        obtain ⟨q1, q2, q3, q4⟩ := hq q List.mem_cons_self
        have hqs := fun q hm => hq q (List.mem_cons_of_mem _ hm)
        have key : ∃ inf1, info1 = [inf1] ∧ info <+: inf1 ∧
            (∀ x ∈ inf1, x.fromGroup = 0 ∧ W x.nodes) ∧
            PlaceOK ops F M inf1 q p := by
          unfold placeQuad at hp
          rw [q3, q4] at hp
          simp only [List.getElem?_cons_zero] at hp
          split at hp
          · rename_i p' hf
            simp only [Option.some.injEq, Prod.mk.injEq] at hp
            obtain ⟨rfl, rfl⟩ := hp
            obtain ⟨f1, x, f2, f3⟩ := findBatch_single hf
            exact ⟨info, rfl, List.prefix_refl _, hi, f1, x, f2, Or.inr f3⟩
          · simp only [Option.some.injEq, Prod.mk.injEq, q1, q2] at hp
            obtain ⟨rfl, rfl⟩ := hp
            refine ⟨info ++ [⟨ops.compose F q.1.2.nodes M q.2.2.nodes, 0, q.2.2.face⟩], ?_,
              List.prefix_append _ _, ?_, rfl,
              ⟨ops.compose F q.1.2.nodes M q.2.2.nodes, 0, q.2.2.face⟩, ?_, Or.inl rfl⟩
            · rfl
            · intro x hx
              rcases List.mem_append.1 hx with h | h
              · exact hi x h
              · rw [List.mem_singleton] at h; rw [h]; exact ⟨rfl, hW q List.mem_cons_self⟩
            · simp
        obtain ⟨inf1, rfl, k1, k2, k3, x, k4, k5⟩ := key
        obtain ⟨inf, e1, e2, e3, e4, e5⟩ := ih hqs
          (fun q hm => hW q (List.mem_cons_of_mem _ hm)) k2 hps
        refine ⟨inf, e1, k1.trans e2, e3, by simp [e4], ?_⟩
        intro y hy
        rw [List.zip_cons_cons] at hy
        rcases List.mem_cons.1 hy with rfl | hy
        · refine ⟨k3, x, ?_, k5⟩
          obtain ⟨l, hl⟩ := e2
          rw [← hl, List.getElem?_append_left (List.getElem?_eq_some_iff.1 k4).1, k4]
        · exact e5 y hy

omit [CommRing R] in
theorem placeQuads_defined {ops : NodeOps R U} {F M : DGroup R U}
    (qs : List ((Nat × Batch U) × (Nat × Batch U))) (info : List (List (BatchInfo U)))
    (hq : ∀ q ∈ qs, q.1.2.fromGroup = 0 ∧ q.2.2.fromGroup = 0) :
    (placeQuads ops [F] [M] 1 qs info).isSome := by
  induction qs generalizing info with
  | nil => rfl
  | cons q qs ih =>
    obtain ⟨h1, h2⟩ := hq q List.mem_cons_self
    have h3 : ∃ p info', placeQuad ops [F] [M] 1 q info = some (p, info') := by
      unfold placeQuad
      rw [h1, h2]
      simp only [List.getElem?_cons_zero]
      split <;> exact ⟨_, _, rfl⟩
    obtain ⟨p, info', h3⟩ := h3
    have h4 := ih info' fun q hm => hq q (List.mem_cons_of_mem _ hm)
    obtain ⟨x, hx⟩ := Option.isSome_iff_exists.1 h4
    simp [placeQuads, h3, hx]

omit [CommRing R] in
theorem distinct_eq {bs : List (Batch U)} (hn : (bs.flatMap Batch.toEls).Nodup) {b b' : Batch U}
    (hb : b ∈ bs) (hb' : b' ∈ bs) {x : Nat} (hx : x ∈ b.toEls) (hx' : x ∈ b'.toEls) : b' = b := by
  by_contra hne
  obtain ⟨i, hi⟩ := List.mem_iff_getElem?.1 hb
  obtain ⟨j, hj⟩ := List.mem_iff_getElem?.1 hb'
  have hij : i ≠ j := by
    rintro rfl
    rw [hi] at hj
    exact hne (Option.some.inj hj).symm
  obtain ⟨hil, hi'⟩ := List.getElem?_eq_some_iff.1 hi
  obtain ⟨hjl, hj'⟩ := List.getElem?_eq_some_iff.1 hj
  have hpw := List.pairwise_iff_getElem.1 (List.nodup_flatMap.1 hn).2
  rcases Nat.lt_or_gt_of_ne hij with hlt | hlt
  · have := hpw i j hil hjl hlt
    rw [Function.onFun, hi', hj'] at this
    exact this hx hx'
  · have := hpw j i hjl hil hlt
    rw [Function.onFun, hi', hj'] at this
    exact this hx' hx

omit [CommRing R] in
theorem distinct_nodup {bs : List (Batch U)} (hn : (bs.flatMap Batch.toEls).Nodup) {b : Batch U}
    (hb : b ∈ bs) : b.toEls.Nodup := (List.nodup_flatMap.1 hn).1 b hb

omit [CommRing R] in
theorem pairs_unique {b : Batch U} (hn : b.toEls.Nodup) {e x x' : Nat} (h : (e, x) ∈ b.pairs)
    (h' : (e, x') ∈ b.pairs) : x = x' :=
  Option.some.inj ((source_of_mem hn h).symm.trans (source_of_mem hn h'))

omit [CommRing R] in
theorem elTable_single {fbs : List (Batch U)} (hn : (fbs.flatMap Batch.toEls).Nodup) {b : Batch U}
    (hb : b ∈ fbs) {x y : Nat} (h : (x, y) ∈ b.pairs) : elTable [fbs] 0 x = some y := by
  unfold elTable
  simp only [List.getD_cons_zero]
  have hbn := distinct_nodup hn hb
  cases hf : fbs.reverse.findSome? fun b => b.source x with
  | none =>
    rw [List.findSome?_eq_none_iff] at hf
    have := hf b (List.mem_reverse.2 hb)
    rw [source_of_mem hbn h] at this
    simp at this
  | some z =>
    obtain ⟨l1, b', l2, h1, h2, _⟩ := List.findSome?_eq_some_iff.1 hf
    have hb' : b' ∈ fbs := List.mem_reverse.1 (by rw [h1]; simp)
    have : b' = b := distinct_eq hn hb hb' (List.of_mem_zip h).1 (batch_source_mem h2).1
    subst this
    rw [source_of_mem hbn h] at h2
    exact h2.symm

omit [CommRing R] in
theorem batchQuads_single (fbs tbs : List (Batch U)) : batchQuads [fbs] [tbs] =
    fbs.flatMap fun fb => tbs.map fun tb => ((0, fb), (0, tb)) := by
  simp [batchQuads, iterBatches, List.flatMap_map, Function.comp_def]

omit [CommRing R] in
theorem mem_swap_zip {l : List Nat} {l' : List Nat} {x e : Nat} :
    (x, e) ∈ l.zip l' ↔ (e, x) ∈ l'.zip l := by
  simp only [List.mem_iff_getElem?, List.getElem?_zip_eq_some]
  exact exists_congr fun _ => and_comm

omit [CommRing R] in
theorem mem_quadPairs {fbs : List (Batch U)} (hn : (fbs.flatMap Batch.toEls).Nodup)
    {fb tb : Batch U} (hfb : fb ∈ fbs) (hlen : fb.fromEls.length = fb.toEls.length) {y e : Nat} :
    (y, e) ∈ quadPairs [fbs] ((0, fb), (0, tb)) ↔
      ∃ x, (e, x) ∈ tb.pairs ∧ (x, y) ∈ fb.pairs := by
  unfold quadPairs
  simp only [List.mem_map, List.mem_filter, List.contains_iff_mem, Prod.mk.injEq, Prod.exists]
  constructor
  · rintro ⟨x, e', ⟨h1, h2⟩, h3, rfl⟩
    obtain ⟨i, hi⟩ := List.mem_iff_getElem?.1 h2
    have hil := (List.getElem?_eq_some_iff.1 hi).1
    have hp : (x, fb.fromEls[i]) ∈ fb.pairs := List.mem_iff_getElem?.2
      ⟨i, List.getElem?_zip_eq_some.2 ⟨hi, List.getElem?_eq_getElem (by omega)⟩⟩
    rw [elTable_single hn hfb hp] at h3
    simp only [Option.getD_some] at h3
    rw [h3] at hp
    exact ⟨x, mem_swap_zip.1 h1, hp⟩
  · rintro ⟨x, h1, h2⟩
    refine ⟨x, e, ⟨mem_swap_zip.2 h1, (List.of_mem_zip h2).1⟩, ?_, rfl⟩
    rw [elTable_single hn hfb h2]
    rfl

omit [CommRing R] in
theorem quads_nodup {fbs tbs : List (Batch U)} (hf : (fbs.flatMap Batch.toEls).Nodup)
    (hfl : ∀ b ∈ fbs, b.fromEls.length = b.toEls.length)
    (ht : (tbs.flatMap Batch.toEls).Nodup) (htl : ∀ b ∈ tbs, b.fromEls.length = b.toEls.length) :
    ((batchQuads [fbs] [tbs]).flatMap fun q => (quadPairs [fbs] q).map Prod.snd).Nodup := by
  rw [batchQuads_single, List.nodup_flatMap]
  have hmem : ∀ {fb tb : Batch U} {e : Nat}, fb ∈ fbs →
      e ∈ (quadPairs [fbs] ((0, fb), (0, tb))).map Prod.snd →
      ∃ x, (e, x) ∈ tb.pairs ∧ x ∈ fb.toEls := by
    intro fb tb e hfb he
    obtain ⟨⟨y, e'⟩, h1, rfl⟩ := List.mem_map.1 he
    obtain ⟨x, h2, h3⟩ := (mem_quadPairs hf hfb (hfl fb hfb)).1 h1
    exact ⟨x, h2, (List.of_mem_zip h3).1⟩
  refine ⟨?_, ?_⟩
  · intro q hq
    obtain ⟨fb, hfb, hq⟩ := List.mem_flatMap.1 hq
    obtain ⟨tb, htb, rfl⟩ := List.mem_map.1 hq
    unfold quadPairs
    rw [List.map_map]
    have : (Prod.snd ∘ fun p : Nat × Nat => ((elTable [fbs] 0 p.1).getD 0, p.2)) = Prod.snd := rfl
    simp only [this]
    refine (distinct_nodup ht htb).sublist ?_
    refine (List.Sublist.map _ List.filter_sublist).trans ?_
    rw [List.map_snd_zip (by rw [htl tb htb])]
  · rw [List.pairwise_flatMap]
    refine ⟨?_, ?_⟩
    · intro fb hfb
      rw [List.pairwise_map]
      refine (List.nodup_flatMap.1 ht).2.imp ?_
      intro tb tb' hd e he he'
      obtain ⟨x, h1, _⟩ := hmem hfb he
      obtain ⟨x', h1', _⟩ := hmem hfb he'
      exact hd (List.of_mem_zip h1).1 (List.of_mem_zip h1').1
    · refine (List.nodup_flatMap.1 hf).2.imp_of_mem ?_
      intro fb fb' hfb hfb' hd q hq q' hq' e he he'
      obtain ⟨tb, htb, rfl⟩ := List.mem_map.1 hq
      obtain ⟨tb', htb', rfl⟩ := List.mem_map.1 hq'
      obtain ⟨x, h1, h2⟩ := hmem hfb he
      obtain ⟨x', h1', h2'⟩ := hmem hfb' he'
      have := distinct_eq ht htb htb' (List.of_mem_zip h1).1 (List.of_mem_zip h1').1
      subst this
      have := pairs_unique (distinct_nodup ht htb) h1 h1'
      subst this
      exact hd h2 h2'

/-- C26, one round: merging two connections with one group on all sides, each of which sets every
target element at most once, gives a connection of the same kind, with the effect of first one and
then the other. -/
theorem mergeConn_spec {ops : NodeOps R U} {surj : Bool} {f t : DirectConn R U}
    {F M T : DGroup R U} {fbs tbs : List (Batch U)} (hf : f.Valid) (ht : t.Valid)
    (of : OneGroup f F M fbs) (ot : OneGroup t M T tbs) {S : DGroup R U → Prop}
    {P : DGroup R U → DGroup R U → U → Prop} (hx : ExactNodes ops S P) (sF : S F) (sM : S M)
    (sT : S T) (pf : ∀ b ∈ fbs, P F M b.nodes) (pt : ∀ b ∈ tbs, P M T b.nodes) :
    ∃ m mbs, mergeConn ops surj f t = some m ∧ m.Valid ∧ OneGroup m F T mbs ∧
      (∀ b ∈ mbs, P F T b.nodes) ∧ m.surjective = surj ∧
      ∀ (a : DofArr R) (e i : Nat), i < T.ndof → m.interp a 0 e i = t.interp (f.interp a) 0 e i := by
  have vf := fun b hb => hf.batch 0 fbs M (by rw [of.groups]; rfl) (by rw [of.toD]; rfl) b hb
  have vt := fun b hb => ht.batch 0 tbs T (by rw [ot.groups]; rfl) (by rw [ot.toD]; rfl) b hb
  have zf : ∀ b ∈ fbs, b.fromGroup = 0 := by
    intro b hb
    obtain ⟨_, _, _, g, hg, _⟩ := vf b hb
    have := (List.getElem?_eq_some_iff.1 hg).1
    rw [of.fromD] at this
    simpa using this
  have zt : ∀ b ∈ tbs, b.fromGroup = 0 := by
    intro b hb
    obtain ⟨_, _, _, g, hg, _⟩ := vt b hb
    have := (List.getElem?_eq_some_iff.1 hg).1
    rw [ot.fromD] at this
    simpa using this
  have ff : ∀ b ∈ fbs, ∀ x ∈ b.fromEls, x < F.nel := by
    intro b hb x hxm
    obtain ⟨_, _, _, g, hg, h1, _⟩ := vf b hb
    rw [of.fromD, zf b hb] at hg
    simp only [List.getElem?_cons_zero, Option.some.injEq] at hg
    rw [hg]
    exact h1 x hxm
  have hquad : ∀ q ∈ batchQuads [fbs] [tbs], ∃ fb ∈ fbs, ∃ tb ∈ tbs, q = ((0, fb), (0, tb)) := by
    intro q hq
    rw [batchQuads_single] at hq
    obtain ⟨fb, hfb, hq⟩ := List.mem_flatMap.1 hq
    obtain ⟨tb, htb, rfl⟩ := List.mem_map.1 hq
    exact ⟨fb, hfb, tb, htb, rfl⟩
  -- the table of places
  have hq0 : ∀ q ∈ batchQuads [fbs] [tbs],
      q.1.1 = 0 ∧ q.2.1 = 0 ∧ q.1.2.fromGroup = 0 ∧ q.2.2.fromGroup = 0 := by
    intro q hq
    obtain ⟨fb, hfb, tb, htb, rfl⟩ := hquad q hq
    exact ⟨rfl, rfl, zf fb hfb, zt tb htb⟩
  obtain ⟨⟨ps, info⟩, hp⟩ := Option.isSome_iff_exists.1 (placeQuads_defined (ops := ops) (F := F)
    (M := M) (batchQuads [fbs] [tbs]) [[]] fun q hq => (hq0 q hq).2.2)
  obtain ⟨inf, rfl, _, hinf, hpl, hpo⟩ :=
    placeQuads_single (W := P F T) hq0 (by
      intro q hq
      obtain ⟨fb, hfb, tb, htb, rfl⟩ := hquad q hq
      exact hx.comp F M T sF sM sT _ _ (pf fb hfb) (pt tb htb)) (by simp) hp
  let newBatch : BatchInfo U × Nat → Batch U := fun b =>
    let pairs := (((batchQuads [fbs] [tbs]).zip ps).filter fun x =>
      x.2 == (0, b.2)).flatMap fun x => quadPairs [fbs] x.1
    ⟨b.1.fromGroup, pairs.map Prod.fst, pairs.map Prod.snd, b.1.nodes, b.1.face⟩
  have hm : mergeConn ops surj f t = some ⟨f.fromD, t.toD, [inf.zipIdx.map newBatch], surj⟩ := by
    unfold mergeConn
    rw [of.groups, ot.groups, of.fromD, ot.fromD]
    have : (List.replicate ([fbs].length * [tbs].length) ([] : List (BatchInfo U))) = [[]] := rfl
    rw [this, show [tbs].length = 1 from rfl, hp]
    rfl
  -- entries of the new batches
  have hentry : ∀ b ∈ inf.zipIdx, ∀ y e, (e, y) ∈ (newBatch b).pairs ↔
      ∃ q, (q, (0, b.2)) ∈ (batchQuads [fbs] [tbs]).zip ps ∧ (y, e) ∈ quadPairs [fbs] q := by
    intro b _ y e
    have : (newBatch b).pairs = ((((batchQuads [fbs] [tbs]).zip ps).filter fun x =>
        x.2 == (0, b.2)).flatMap fun x => quadPairs [fbs] x.1).map Prod.swap := by
      simp only [newBatch, Batch.pairs]
      rw [List.zip_map, ← List.map_id (List.map _ _)]
      generalize (List.flatMap _ _) = l
      induction l with
      | nil => rfl
      | cons a l ih => simpa [Prod.swap] using ih
    rw [this]
    constructor
    · intro h
      obtain ⟨⟨y', e'⟩, h0, h4⟩ := List.mem_map.1 h
      obtain ⟨⟨q, p⟩, h1, h3⟩ := List.mem_flatMap.1 h0
      obtain ⟨h1, h2⟩ := List.mem_filter.1 h1
      simp only [Prod.swap, Prod.mk.injEq] at h4
      obtain ⟨rfl, rfl⟩ := h4
      have h2 : p = (0, b.2) := by simpa using h2
      rw [h2] at h1
      exact ⟨q, h1, h3⟩
    · rintro ⟨q, h1, h3⟩
      exact List.mem_map.2 ⟨(y, e), List.mem_flatMap.2 ⟨(q, (0, b.2)), List.mem_filter.2
        ⟨h1, by simp⟩, h3⟩, rfl⟩
  have hlen : ∀ b, (newBatch b).fromEls.length = (newBatch b).toEls.length := by
    intro b; simp [newBatch]
  have hdist : ((inf.zipIdx.map newBatch).flatMap Batch.toEls).Nodup := by
    have h1 : (((batchQuads [fbs] [tbs]).zip ps).flatMap fun x =>
        (quadPairs [fbs] x.1).map Prod.snd).Nodup := by
      have h2 := quads_nodup of.distinct (fun b hb => (vf b hb).1) ot.distinct
        fun b hb => (vt b hb).1
      have h3 : ((batchQuads [fbs] [tbs]).zip ps).flatMap (fun x =>
          (quadPairs [fbs] x.1).map Prod.snd) =
          (((batchQuads [fbs] [tbs]).zip ps).map Prod.fst).flatMap fun q =>
            (quadPairs [fbs] q).map Prod.snd := by
        rw [List.flatMap_map]
      rw [h3, List.map_fst_zip (by rw [hpl])]
      exact h2
    have hperm := flatMap_filter_perm (fun x : ((Nat × Batch U) × (Nat × Batch U)) × (Nat × Nat) =>
      x.2) (inf.zipIdx.map fun b => (0, b.2)) (by
        have : (inf.zipIdx.map fun b => ((0 : Nat), b.2)) =
            (inf.zipIdx.map Prod.snd).map fun k => (0, k) := by rw [List.map_map]; rfl
        rw [this, List.zipIdx_map_snd]
        refine (List.nodup_range' (step := 1)).map ?_
        intro a b hab
        simpa using hab) ((batchQuads [fbs] [tbs]).zip ps)
    have hperm := hperm.trans (List.Perm.of_eq (List.filter_eq_self.2 (by
      intro x hx
      obtain ⟨h4, y, h5, _⟩ := hpo x hx
      simp only [decide_eq_true_eq, List.mem_map]
      exact ⟨(y, x.2.2), List.mem_zipIdx_iff_getElem?.2 h5, by rw [← h4]⟩)))
    have h6 := ((hperm.flatMap_right fun x => (quadPairs [fbs] x.1).map Prod.snd).nodup_iff).2 h1
    rw [List.flatMap_map, List.flatMap_assoc] at h6
    rw [List.flatMap_map]
    have : (fun b => (newBatch b).toEls) = fun b : BatchInfo U × Nat =>
        (((batchQuads [fbs] [tbs]).zip ps).filter fun x => x.2 == (0, b.2)).flatMap fun x =>
          (quadPairs [fbs] x.1).map Prod.snd := by
      funext b
      simp only [newBatch]
      rw [List.map_flatMap]
    rw [this]
    refine Eq.mp (congrArg List.Nodup ?_) h6
    congr 1
    funext b
    congr 1
    apply List.filter_congr
    intro x _
    rw [Bool.eq_iff_iff]
    simp only [beq_iff_eq]
  have hentry' : ∀ b ∈ inf.zipIdx, ∀ y e, (e, y) ∈ (newBatch b).pairs →
      ∃ fb ∈ fbs, ∃ tb ∈ tbs, ∃ x, (e, x) ∈ tb.pairs ∧ (x, y) ∈ fb.pairs := by
    intro b hb y e h
    obtain ⟨q, h1, h2⟩ := (hentry b hb y e).1 h
    obtain ⟨fb, hfb, tb, htb, rfl⟩ := hquad q (List.of_mem_zip h1).1
    obtain ⟨x, h3, h4⟩ := (mem_quadPairs of.distinct hfb (vf fb hfb).1).1 h2
    exact ⟨fb, hfb, tb, htb, x, h3, h4⟩
  have hto : ∀ b ∈ inf.zipIdx, ∀ e ∈ (newBatch b).toEls, ∃ y, (e, y) ∈ (newBatch b).pairs := by
    intro b _ e he
    obtain ⟨i, hi⟩ := List.mem_iff_getElem?.1 he
    have hil := (List.getElem?_eq_some_iff.1 hi).1
    exact ⟨_, List.mem_iff_getElem?.2 ⟨i, List.getElem?_zip_eq_some.2
      ⟨hi, List.getElem?_eq_getElem (by rw [hlen]; exact hil)⟩⟩⟩
  have hfrom : ∀ b ∈ inf.zipIdx, ∀ y ∈ (newBatch b).fromEls, ∃ e, (e, y) ∈ (newBatch b).pairs := by
    intro b _ e he
    obtain ⟨i, hi⟩ := List.mem_iff_getElem?.1 he
    have hil := (List.getElem?_eq_some_iff.1 hi).1
    exact ⟨_, List.mem_iff_getElem?.2 ⟨i, List.getElem?_zip_eq_some.2
      ⟨List.getElem?_eq_getElem (by rw [← hlen]; exact hil), hi⟩⟩⟩
  have hvalid : DirectConn.Valid ⟨f.fromD, t.toD, [inf.zipIdx.map newBatch], surj⟩ := by
    refine ⟨by simp [ot.toD], ?_⟩
    intro k bs tg hk htg b hb
    have hk0 : k = 0 := by
      have := (List.getElem?_eq_some_iff.1 hk).1
      simpa using this
    subst hk0
    simp only [List.getElem?_cons_zero, Option.some.injEq] at hk
    subst hk
    simp only [ot.toD, List.getElem?_cons_zero, Option.some.injEq] at htg
    subst htg
    obtain ⟨x, hxm, rfl⟩ := List.mem_map.1 hb
    have hxi := hinf x.1 (List.mem_of_getElem? (List.mem_zipIdx_iff_getElem?.1 hxm))
    refine ⟨hlen x, distinct_nodup hdist hb, ?_, F, ?_, ?_, ?_⟩
    · intro e he
      obtain ⟨y, hy⟩ := hto x hxm e he
      obtain ⟨fb, hfb, tb, htb, z, h1, h2⟩ := hentry' x hxm y e hy
      exact (vt tb htb).2.2.1 e (List.of_mem_zip h1).1
    · simp only [newBatch, hxi.1, of.fromD]
      rfl
    · intro y hy
      obtain ⟨e, he⟩ := hfrom x hxm y hy
      obtain ⟨fb, hfb, tb, htb, z, h1, h2⟩ := hentry' x hxm y e he
      exact ff fb hfb y (List.of_mem_zip h2).2
    · intro I hI
      exact hx.pick F T sF sT _ hxi.2 I hI
  have hone : OneGroup ⟨f.fromD, t.toD, [inf.zipIdx.map newBatch], surj⟩ F T
      (inf.zipIdx.map newBatch) := ⟨of.fromD, ot.toD, rfl, hdist⟩
  refine ⟨_, _, hm, hvalid, hone, ?_, rfl, ?_⟩
  · intro b hb
    obtain ⟨x, hxm, rfl⟩ := List.mem_map.1 hb
    exact (hinf x.1 (List.mem_of_getElem? (List.mem_zipIdx_iff_getElem?.1 hxm))).2
  intro a e i hi
  have r1 : DirectConn.interp ⟨f.fromD, t.toD, [inf.zipIdx.map newBatch], surj⟩ a 0 e i =
      ((inf.zipIdx.map newBatch).map fun b => interpEval f.fromD a b e i).sum := rfl
  have r2 : t.interp (f.interp a) 0 e i =
      (tbs.map fun b => interpEval t.fromD (f.interp a) b e i).sum := by
    simp only [DirectConn.interp, ot.groups]
    rfl
  rw [r1, r2]
  by_cases he : e ∈ tbs.flatMap Batch.toEls
  · obtain ⟨tb, htb, het⟩ := List.mem_flatMap.1 he
    obtain ⟨k, hk⟩ := List.mem_iff_getElem?.1 het
    have hkl := (List.getElem?_eq_some_iff.1 hk).1
    have hpx : (e, tb.fromEls[k]'(by rw [(vt tb htb).1]; exact hkl)) ∈ tb.pairs :=
      List.mem_iff_getElem?.2 ⟨k, List.getElem?_zip_eq_some.2
        ⟨hk, List.getElem?_eq_getElem (by rw [(vt tb htb).1]; exact hkl)⟩⟩
    generalize tb.fromEls[k]'(by rw [(vt tb htb).1]; exact hkl) = x at hpx
    rw [interp_sum_of_mem ot.distinct htb hpx (g := M) (by rw [ot.fromD, zt tb htb]; rfl), zt tb htb]
    have hbval : ∀ j, f.interp a 0 x j = (fbs.map fun b => interpEval f.fromD a b x j).sum := by
      intro j
      simp only [DirectConn.interp, of.groups]
      rfl
    by_cases hxf : x ∈ fbs.flatMap Batch.toEls
    · obtain ⟨fb, hfb, hxt⟩ := List.mem_flatMap.1 hxf
      obtain ⟨k', hk'⟩ := List.mem_iff_getElem?.1 hxt
      have hkl' := (List.getElem?_eq_some_iff.1 hk').1
      have hpy : (x, fb.fromEls[k']'(by rw [(vf fb hfb).1]; exact hkl')) ∈ fb.pairs :=
        List.mem_iff_getElem?.2 ⟨k', List.getElem?_zip_eq_some.2
          ⟨hk', List.getElem?_eq_getElem (by rw [(vf fb hfb).1]; exact hkl')⟩⟩
      generalize fb.fromEls[k']'(by rw [(vf fb hfb).1]; exact hkl') = y at hpy
      -- the new batch
      have hq : (((0, fb), (0, tb)) : (Nat × Batch U) × (Nat × Batch U)) ∈
          batchQuads [fbs] [tbs] := by
        rw [batchQuads_single]
        exact List.mem_flatMap.2 ⟨fb, hfb, List.mem_map.2 ⟨tb, htb, rfl⟩⟩
      obtain ⟨n, hn⟩ := List.mem_iff_getElem?.1 hq
      have hnl := (List.getElem?_eq_some_iff.1 hn).1
      have hz : ((((0, fb), (0, tb)) : (Nat × Batch U) × (Nat × Batch U)),
          ps[n]'(by rw [hpl]; exact hnl)) ∈ (batchQuads [fbs] [tbs]).zip ps :=
        List.mem_iff_getElem?.2 ⟨n, List.getElem?_zip_eq_some.2
          ⟨hn, List.getElem?_eq_getElem (by rw [hpl]; exact hnl)⟩⟩
      generalize ps[n]'(by rw [hpl]; exact hnl) = p at hz
      obtain ⟨hp0, w, hw, hwc⟩ := hpo _ hz
      simp only at hp0 hw hwc
      have hwm : (w, p.2) ∈ inf.zipIdx := List.mem_zipIdx_iff_getElem?.2 hw
      have hpe : (e, y) ∈ (newBatch (w, p.2)).pairs := by
        refine (hentry _ hwm y e).2 ⟨_, ?_, (mem_quadPairs of.distinct hfb (vf fb hfb).1).2
          ⟨x, hpx, hpy⟩⟩
        have : p = (0, p.2) := by rw [← hp0]
        rw [← this]
        exact hz
      have hw0 := (hinf w (List.mem_of_getElem? hw)).1
      rw [interp_sum_of_mem hdist (List.mem_map.2 ⟨_, hwm, rfl⟩) hpe (g := F)
        (by simp only [newBatch, hw0, of.fromD]; rfl)]
      have hfg : (newBatch (w, p.2)).fromGroup = 0 := hw0
      rw [hfg]
      have hmat := hx.exact F M T sF sM sT fb.nodes tb.nodes w.nodes (pf fb hfb) (pt tb htb)
        (hinf w (List.mem_of_getElem? hw)).2 hwc i hi
      have e1 : ∑ k ∈ range F.ndof, F.mat (newBatch (w, p.2)).nodes i k * a 0 y k =
          ∑ k ∈ range F.ndof, (∑ j ∈ range M.ndof, M.mat tb.nodes i j * F.mat fb.nodes j k) *
            a 0 y k := by
        apply Finset.sum_congr rfl
        intro k hk
        rw [← hmat k (Finset.mem_range.1 hk)]
      rw [e1]
      simp only [Finset.sum_mul]
      rw [Finset.sum_comm]
      apply Finset.sum_congr rfl
      intro j hj
      rw [hbval j, interp_sum_of_mem of.distinct hfb hpy (g := F)
        (by rw [of.fromD, zf fb hfb]; rfl), zf fb hfb, Finset.mul_sum]
      apply Finset.sum_congr rfl
      intro k _
      ring
    · rw [interp_sum_none]
      · symm
        apply Finset.sum_eq_zero
        intro j hj
        rw [hbval j, interp_sum_none hxf, mul_zero]
      · intro hem
        obtain ⟨nb, hnb, hen⟩ := List.mem_flatMap.1 hem
        obtain ⟨z, hzm, rfl⟩ := List.mem_map.1 hnb
        obtain ⟨y, hy⟩ := hto z hzm e hen
        obtain ⟨fb, hfb, tb', htb', x', h1, h2⟩ := hentry' z hzm y e hy
        have := distinct_eq ot.distinct htb htb' het (List.of_mem_zip h1).1
        subst this
        have := pairs_unique (distinct_nodup ot.distinct htb) hpx h1
        subst this
        exact hxf (List.mem_flatMap.2 ⟨fb, hfb, (List.of_mem_zip h2).1⟩)
  · rw [interp_sum_none he, interp_sum_none]
    intro hem
    obtain ⟨nb, hnb, hen⟩ := List.mem_flatMap.1 hem
    obtain ⟨z, hzm, rfl⟩ := List.mem_map.1 hnb
    obtain ⟨y, hy⟩ := hto z hzm e hen
    obtain ⟨fb, hfb, tb', htb', x', h1, h2⟩ := hentry' z hzm y e hy
    exact he (List.mem_flatMap.2 ⟨tb', htb', (List.of_mem_zip h1).1⟩)

/-! ### Chains -/

/-- Arrays that agree on the degrees of freedom of the only group `T`.
(Specification or proof vocabulary, no code.) -/
def AgreeOn (T : DGroup R U) (u v : DofArr R) : Prop := ∀ e i, i < T.ndof → u 0 e i = v 0 e i

/-- A direct connection from `F` to `T` for which flattening is exact.
(Specification or proof vocabulary, no code.) -/
def DirectConn.Flat (S : DGroup R U → Prop) (P : DGroup R U → DGroup R U → U → Prop)
    (c : DirectConn R U) (F T : DGroup R U) : Prop :=
  c.Valid ∧ S F ∧ S T ∧ ∃ bs, OneGroup c F T bs ∧ ∀ b ∈ bs, P F T b.nodes

mutual
/-- Direct connections as above and identities, chained so that they fit together.
(Specification or proof vocabulary, no code.) -/
def Conn.Flat (S : DGroup R U → Prop) (P : DGroup R U → DGroup R U → U → Prop) :
    Conn R U → DGroup R U → DGroup R U → Prop
  | .direct c, F, T => c.Flat S P F T
  | .ident D, F, T => F = T ∧ S F ∧ D = [F]
  | .chained l f t _, F, T => f = [F] ∧ t = [T] ∧ Conn.FlatList S P l F T

/-- The members. (Specification or proof vocabulary, no code.) -/
def Conn.FlatList (S : DGroup R U → Prop) (P : DGroup R U → DGroup R U → U → Prop) :
    List (Conn R U) → DGroup R U → DGroup R U → Prop
  | [], F, T => F = T ∧ S F
  | c :: cs, F, T => ∃ M, Conn.Flat S P c F M ∧ Conn.FlatList S P cs M T
end

omit [CommRing R] in
section
mutual
/-- Some member, possibly nested, is a direct connection.
(Specification or proof vocabulary, no code.) -/
def Conn.hasDirect : Conn R U → Bool
  | .direct _ => true
  | .ident _ => false
  | .chained l _ _ _ => Conn.hasDirectList l

/-- The members. (Specification or proof vocabulary, no code.) -/
def Conn.hasDirectList : List (Conn R U) → Bool
  | [] => false
  | c :: cs => Conn.hasDirect c || Conn.hasDirectList cs
end

mutual
/-- No nonempty chain in the tree consists of identities only.
(Specification or proof vocabulary, no code.) -/
def Conn.noIdChain : Conn R U → Bool
  | .direct _ => true
  | .ident _ => true
  | .chained l _ _ _ => (l.isEmpty || Conn.hasDirectList l) && Conn.noIdChainList l

/-- The members. (Specification or proof vocabulary, no code.) -/
def Conn.noIdChainList : List (Conn R U) → Bool
  | [] => true
  | c :: cs => Conn.noIdChain c && Conn.noIdChainList cs
end
end

mutual
/-- The effect of a connection, member by member. (Specification or proof vocabulary, no code.) -/
def Conn.eff : Conn R U → DofArr R → DofArr R
  | .direct c, a => c.interp a
  | .ident _, a => a
  | .chained l _ _ _, a => Conn.effList l a

/-- The members. (Specification or proof vocabulary, no code.) -/
def Conn.effList : List (Conn R U) → DofArr R → DofArr R
  | [], a => a
  | c :: cs, a => Conn.effList cs (Conn.eff c a)
end

theorem interp_agree {c : DirectConn R U} {F T : DGroup R U} {bs : List (Batch U)} (hv : c.Valid)
    (o : OneGroup c F T bs) {a a' : DofArr R} (h : AgreeOn F a a') (e i : Nat) :
    c.interp a 0 e i = c.interp a' 0 e i := by
  simp only [DirectConn.interp, o.groups, List.getElem?_cons_zero]
  congr 1
  apply List.map_congr_left
  intro b hb
  obtain ⟨_, _, _, g, hg, _⟩ := hv.batch 0 bs T (by rw [o.groups]; rfl) (by rw [o.toD]; rfl) b hb
  have h0 : b.fromGroup = 0 := by
    have := (List.getElem?_eq_some_iff.1 hg).1
    rw [o.fromD] at this
    simpa using this
  unfold interpEval
  rw [h0, o.fromD]
  cases b.source e with
  | none => rfl
  | some f =>
    simp only [List.getElem?_cons_zero]
    apply Finset.sum_congr rfl
    intro j hj
    rw [h f j (Finset.mem_range.1 hj)]

theorem call_agree {c : DirectConn R U} {F T : DGroup R U} {bs : List (Batch U)} (hv : c.Valid)
    (o : OneGroup c F T bs) (hs : PickSound F) {mg : Bool} {a u : DofArr R}
    (h : c.call mg a = some u) : AgreeOn T u (c.interp a) := by
  intro e i hi
  have hs' : ∀ g ∈ c.fromD, PickSound g := by
    intro g hg
    rw [o.fromD, List.mem_singleton] at hg
    rw [hg]
    exact hs
  rw [C23_value hv hs' h (t := 0) (by rw [o.groups]; rfl) (tg := T) (by rw [o.toD]; rfl) hi]
  simp only [DirectConn.interp, o.groups]
  rfl

mutual
theorem eff_agree {S : DGroup R U → Prop} {P : DGroup R U → DGroup R U → U → Prop}
    (c : Conn R U) {F T : DGroup R U} (h : Conn.Flat S P c F T) {a a' : DofArr R}
    (ha : AgreeOn F a a') : AgreeOn T (Conn.eff c a) (Conn.eff c a') := by
  match c with
  | .direct c =>
    obtain ⟨hv, _, _, bs, o, _⟩ := h
    intro e i _
    rw [Conn.eff, Conn.eff]
    exact interp_agree hv o ha e i
  | .ident D =>
    obtain ⟨rfl, _, _⟩ := h
    rw [Conn.eff, Conn.eff]
    exact ha
  | .chained l f t s =>
    rw [Conn.Flat] at h
    rw [Conn.eff, Conn.eff]
    exact effList_agree l h.2.2 ha

theorem effList_agree {S : DGroup R U → Prop} {P : DGroup R U → DGroup R U → U → Prop}
    (l : List (Conn R U)) {F T : DGroup R U} (h : Conn.FlatList S P l F T) {a a' : DofArr R}
    (ha : AgreeOn F a a') : AgreeOn T (Conn.effList l a) (Conn.effList l a') := by
  match l with
  | [] =>
    rw [Conn.FlatList] at h
    obtain ⟨rfl, _⟩ := h
    rw [Conn.effList, Conn.effList]
    exact ha
  | c :: cs =>
    rw [Conn.FlatList] at h
    obtain ⟨M, h1, h2⟩ := h
    rw [Conn.effList, Conn.effList]
    exact effList_agree cs h2 (eff_agree c h1 ha)
end

mutual
theorem call_eff {S : DGroup R U → Prop} {P : DGroup R U → DGroup R U → U → Prop}
    (hs : ∀ F, S F → PickSound F)
    (c : Conn R U) {F T : DGroup R U} (h : Conn.Flat S P c F T) {mg : Bool} {a u : DofArr R}
    (hc : Conn.call mg c a = some u) : AgreeOn T u (Conn.eff c a) := by
  match c with
  | .direct c =>
    obtain ⟨hv, sF, _, bs, o, _⟩ := h
    rw [Conn.call] at hc
    rw [Conn.eff]
    exact call_agree hv o (hs F sF) hc
  | .ident D =>
    rw [Conn.call, Option.some.injEq] at hc
    subst hc
    rw [Conn.eff]
    exact fun _ _ _ => rfl
  | .chained l f t s =>
    rw [Conn.Flat] at h
    rw [Conn.call] at hc
    rw [Conn.eff]
    exact callList_eff hs l h.2.2 hc

theorem callList_eff {S : DGroup R U → Prop} {P : DGroup R U → DGroup R U → U → Prop}
    (hs : ∀ F, S F → PickSound F)
    (l : List (Conn R U)) {F T : DGroup R U} (h : Conn.FlatList S P l F T) {mg : Bool}
    {a u : DofArr R} (hc : Conn.callList mg l a = some u) : AgreeOn T u (Conn.effList l a) := by
  match l with
  | [] =>
    rw [Conn.callList, Option.some.injEq] at hc
    subst hc
    rw [Conn.effList]
    exact fun _ _ _ => rfl
  | c :: cs =>
    rw [Conn.FlatList] at h
    obtain ⟨M, h1, h2⟩ := h
    rw [Conn.callList, Option.bind_eq_some_iff] at hc
    obtain ⟨b, hb, hc⟩ := hc
    rw [Conn.effList]
    have e1 := callList_eff hs cs h2 hc
    have e2 := effList_agree cs h2 (call_eff hs c h1 hb)
    exact fun e i hi => (e1 e i hi).trans (e2 e i hi)
end

/-- Direct connections that fit together. (Specification or proof vocabulary, no code.) -/
def DirectChain (S : DGroup R U → Prop) (P : DGroup R U → DGroup R U → U → Prop) :
    List (DirectConn R U) → DGroup R U → DGroup R U → Prop
  | [], F, T => F = T ∧ S F
  | c :: cs, F, T => ∃ M, c.Flat S P F M ∧ DirectChain S P cs M T

/-- Their effect. (Specification or proof vocabulary, no code.) -/
def interpAll : List (DirectConn R U) → DofArr R → DofArr R
  | [], a => a
  | c :: cs, a => interpAll cs (c.interp a)

theorem interpAll_agree {S : DGroup R U → Prop} {P : DGroup R U → DGroup R U → U → Prop}
    {l : List (DirectConn R U)} {F T : DGroup R U} (h : DirectChain S P l F T) {a a' : DofArr R}
    (ha : AgreeOn F a a') : AgreeOn T (interpAll l a) (interpAll l a') := by
  induction l generalizing F a a' with
  | nil => obtain ⟨rfl, _⟩ := h; exact ha
  | cons c cs ih =>
    obtain ⟨M, ⟨hv, _, _, bs, o, _⟩, h2⟩ := h
    exact ih h2 fun e i _ => interp_agree hv o ha e i

theorem mergeAll_spec {ops : NodeOps R U} {surj : Bool} {S : DGroup R U → Prop}
    {P : DGroup R U → DGroup R U → U → Prop} (hx : ExactNodes ops S P) {c : DirectConn R U}
    {cs : List (DirectConn R U)} {F T : DGroup R U} (h : DirectChain S P (c :: cs) F T) :
    ∃ m, mergeAll ops surj c cs = some m ∧ m.Flat S P F T ∧
      (cs ≠ [] → m.surjective = surj) ∧ (cs = [] → m = c) ∧
      ∀ a, AgreeOn T (m.interp a) (interpAll (c :: cs) a) := by
  induction cs generalizing c with
  | nil =>
    obtain ⟨M, h1, rfl, _⟩ := h
    exact ⟨c, rfl, h1, by simp, fun _ => rfl, fun _ _ _ _ => rfl⟩
  | cons t ts ih =>
    obtain ⟨M, ⟨hv, sF, sM, bs, o, p⟩, M', ⟨hv', _, sT, bs', o', p'⟩, h3⟩ := h
    obtain ⟨m, mbs, hm, hmv, hmo, hmp, hms, hma⟩ :=
      mergeConn_spec (surj := surj) hv hv' o o' hx sF sM sT p p'
    obtain ⟨m', h4, h5, h6, h7, h8⟩ := ih (c := m) ⟨M', ⟨hmv, sF, sT, mbs, hmo, hmp⟩, h3⟩
    refine ⟨m', ?_, h5, ?_, by simp, ?_⟩
    · rw [mergeAll, hm]
      exact h4
    · intro _
      by_cases ht : ts = []
      · rw [h7 ht, hms]
      · exact h6 ht
    · intro a e i hi
      rw [h8 a e i hi]
      exact interpAll_agree h3 (fun e i hi => hma a e i hi) e i hi

/-- Results of flattening are direct connections or identities.
(Specification or proof vocabulary, no code.) -/
def Conn.Simple : Conn R U → Prop
  | .direct _ => True
  | .ident _ => True
  | .chained _ _ _ _ => False

omit [CommRing R] in
theorem filterMap_direct {S : DGroup R U → Prop} {P : DGroup R U → DGroup R U → U → Prop}
    [CommRing R] {l : List (Conn R U)} {F T : DGroup R U} (h : Conn.FlatList S P l F T)
    (hs : ∀ c ∈ l, c.Simple) : DirectChain S P (l.filterMap Conn.direct?) F T ∧
    ∀ a, interpAll (l.filterMap Conn.direct?) a = Conn.effList l a := by
  induction l generalizing F with
  | nil =>
    rw [Conn.FlatList] at h
    exact ⟨h, fun a => by rw [Conn.effList]; rfl⟩
  | cons c cs ih =>
    rw [Conn.FlatList] at h
    obtain ⟨M, h1, h2⟩ := h
    obtain ⟨i1, i2⟩ := ih h2 fun c hc => hs c (List.mem_cons_of_mem _ hc)
    match c with
    | .direct d =>
      rw [Conn.Flat] at h1
      refine ⟨⟨M, h1, i1⟩, fun a => ?_⟩
      rw [Conn.effList, Conn.eff]
      exact i2 _
    | .ident D =>
      rw [Conn.Flat] at h1
      obtain ⟨rfl, _, _⟩ := h1
      refine ⟨i1, fun a => ?_⟩
      rw [Conn.effList, Conn.eff]
      exact i2 _
    | .chained l f t s => exact (hs _ List.mem_cons_self).elim

omit [CommRing R] in
theorem filterMap_direct_nil (l : List (Conn R U)) (hs : ∀ c ∈ l, c.Simple) :
    Conn.hasDirectList l = !(l.filterMap Conn.direct?).isEmpty := by
  induction l with
  | nil => rw [Conn.hasDirectList]; rfl
  | cons c cs ih =>
    have := ih fun c hc => hs c (List.mem_cons_of_mem _ hc)
    match c with
    | .direct d => simp [Conn.hasDirectList, Conn.hasDirect, Conn.direct?]
    | .ident D =>
      rw [Conn.hasDirectList, Conn.hasDirect, this, Bool.false_or, List.filterMap_cons]
      rfl
    | .chained l f t s => exact (hs _ List.mem_cons_self).elim

omit [CommRing R] in
mutual
theorem flatten_hasDirect {ops : NodeOps R U} (c : Conn R U) {c' : Conn R U}
    (h : Conn.flatten ops c = some c') : c'.Simple ∧ c'.hasDirect = c.hasDirect := by
  match c with
  | .direct d =>
    rw [Conn.flatten, Option.some.injEq] at h
    subst h
    exact ⟨trivial, rfl⟩
  | .ident D =>
    rw [Conn.flatten, Option.some.injEq] at h
    subst h
    exact ⟨trivial, rfl⟩
  | .chained [] f t s =>
    rw [Conn.flatten, Option.some.injEq] at h
    subst h
    refine ⟨trivial, ?_⟩
    rw [Conn.hasDirect, Conn.hasDirect, Conn.hasDirectList]
  | .chained (d :: ds) f t s =>
    rw [Conn.flatten, Option.bind_eq_some_iff] at h
    obtain ⟨d', hd, h⟩ := h
    rw [Option.bind_eq_some_iff] at h
    obtain ⟨ds', hds, h⟩ := h
    obtain ⟨h1, h2⟩ := flatten_hasDirect d hd
    obtain ⟨h3, h4⟩ := flattenList_hasDirect ds hds
    have h5 := filterMap_direct_nil (d' :: ds') (by
      intro c hc
      rcases List.mem_cons.1 hc with rfl | hc
      · exact h1
      · exact h3 c hc)
    split at h
    · simp at h
    · rename_i x xs hx
      rw [Option.map_eq_some_iff] at h
      obtain ⟨m, _, rfl⟩ := h
      refine ⟨trivial, ?_⟩
      rw [hx, Conn.hasDirectList, h2, h4] at h5
      rw [Conn.hasDirect, Conn.hasDirect, Conn.hasDirectList, h5]
      rfl

theorem flattenList_hasDirect {ops : NodeOps R U} (l : List (Conn R U)) {l' : List (Conn R U)}
    (h : Conn.flattenList ops l = some l') :
    (∀ c ∈ l', c.Simple) ∧ Conn.hasDirectList l' = Conn.hasDirectList l := by
  match l with
  | [] =>
    rw [Conn.flattenList, Option.some.injEq] at h
    subst h
    exact ⟨by simp, rfl⟩
  | d :: ds =>
    rw [Conn.flattenList, Option.bind_eq_some_iff] at h
    obtain ⟨d', hd, h⟩ := h
    rw [Option.map_eq_some_iff] at h
    obtain ⟨ds', hds, rfl⟩ := h
    obtain ⟨h1, h2⟩ := flatten_hasDirect d hd
    obtain ⟨h3, h4⟩ := flattenList_hasDirect ds hds
    refine ⟨?_, by rw [Conn.hasDirectList, Conn.hasDirectList, h2, h4]⟩
    intro c hc
    rcases List.mem_cons.1 hc with rfl | hc
    · exact h1
    · exact h3 c hc
end

mutual
theorem flatten_spec {ops : NodeOps R U} {S : DGroup R U → Prop}
    {P : DGroup R U → DGroup R U → U → Prop} (hx : ExactNodes ops S P) (c : Conn R U)
    {F T : DGroup R U} (h : Conn.Flat S P c F T) (hn : c.noIdChain = true) :
    ∃ c', Conn.flatten ops c = some c' ∧ Conn.Flat S P c' F T ∧
      ∀ a, AgreeOn T (Conn.eff c' a) (Conn.eff c a) := by
  match c with
  | .direct d => exact ⟨_, by rw [Conn.flatten], h, fun _ _ _ _ => rfl⟩
  | .ident D => exact ⟨_, by rw [Conn.flatten], h, fun _ _ _ _ => rfl⟩
  | .chained [] f t s =>
    rw [Conn.Flat, Conn.FlatList] at h
    obtain ⟨hf, _, rfl, hS⟩ := h
    refine ⟨_, by rw [Conn.flatten], ?_, ?_⟩
    · rw [Conn.Flat]
      exact ⟨rfl, hS, hf⟩
    · intro a
      rw [Conn.eff, Conn.eff, Conn.effList]
      exact fun _ _ _ => rfl
  | .chained (d :: ds) f t s =>
    rw [Conn.Flat, Conn.FlatList] at h
    obtain ⟨_, _, M, h1, h2⟩ := h
    rw [Conn.noIdChain, Conn.noIdChainList] at hn
    simp only [List.isEmpty_cons, Bool.false_or, Bool.and_eq_true] at hn
    obtain ⟨n1, n2, n3⟩ := hn
    obtain ⟨d', hd, f1, a1⟩ := flatten_spec hx d h1 n2
    obtain ⟨ds', hds, f2, a2⟩ := flattenList_spec hx ds h2 n3
    obtain ⟨s1, s2⟩ := flatten_hasDirect d hd
    obtain ⟨s3, s4⟩ := flattenList_hasDirect ds hds
    have hsimple : ∀ c ∈ d' :: ds', c.Simple := by
      intro c hc
      rcases List.mem_cons.1 hc with rfl | hc
      · exact s1
      · exact s3 c hc
    have h5 := filterMap_direct_nil (d' :: ds') hsimple
    rw [Conn.hasDirectList, s2, s4, ← Conn.hasDirectList, n1] at h5
    have hfl : Conn.FlatList S P (d' :: ds') F T := by
      rw [Conn.FlatList]
      exact ⟨M, f1, f2⟩
    obtain ⟨hch, heq⟩ := filterMap_direct hfl hsimple
    cases hfm : (d' :: ds').filterMap Conn.direct? with
    | nil => rw [hfm] at h5; simp at h5
    | cons x xs =>
      rw [hfm] at hch heq
      obtain ⟨m, m1, m2, _, _, m3⟩ := mergeAll_spec (surj := s) hx hch
      refine ⟨.direct m, ?_, ?_, ?_⟩
      · rw [Conn.flatten, hd, hds]
        simp only [Option.bind_some, hfm, m1, Option.map_some]
      · rw [Conn.Flat]
        exact m2
      · intro a e i hi
        rw [Conn.eff, Conn.eff, Conn.effList, m3 a e i hi, heq a, Conn.effList]
        exact (a2 _ e i hi).trans (effList_agree ds h2 (a1 a) e i hi)

theorem flattenList_spec {ops : NodeOps R U} {S : DGroup R U → Prop}
    {P : DGroup R U → DGroup R U → U → Prop} (hx : ExactNodes ops S P) (l : List (Conn R U))
    {F T : DGroup R U} (h : Conn.FlatList S P l F T) (hn : Conn.noIdChainList l = true) :
    ∃ l', Conn.flattenList ops l = some l' ∧ Conn.FlatList S P l' F T ∧
      ∀ a, AgreeOn T (Conn.effList l' a) (Conn.effList l a) := by
  match l with
  | [] => exact ⟨[], by rw [Conn.flattenList], h, fun _ _ _ _ => rfl⟩
  | d :: ds =>
    rw [Conn.FlatList] at h
    obtain ⟨M, h1, h2⟩ := h
    rw [Conn.noIdChainList, Bool.and_eq_true] at hn
    obtain ⟨d', hd, f1, a1⟩ := flatten_spec hx d h1 hn.1
    obtain ⟨ds', hds, f2, a2⟩ := flattenList_spec hx ds h2 hn.2
    refine ⟨d' :: ds', ?_, ?_, ?_⟩
    · rw [Conn.flattenList, hd, hds]
      rfl
    · rw [Conn.FlatList]
      exact ⟨M, f1, f2⟩
    · intro a e i hi
      rw [Conn.effList, Conn.effList]
      exact (a2 _ e i hi).trans (effList_agree ds h2 (a1 a) e i hi)
end

/-- C26, partial: flattening a chain, nested in any way, of direct connections between
discretizations with one group each, in which every target element is set at most once, gives a
connection with the same effect.  Missing: several groups (`C26_groups_counterexample`), elements
set twice (`C26_repeated_counterexample`), chains of identities only (`C26_identities`). -/
theorem C26_flatten_partial {ops : NodeOps R U} {S : DGroup R U → Prop}
    {P : DGroup R U → DGroup R U → U → Prop} (hx : ExactNodes ops S P) (c : Conn R U)
    {F T : DGroup R U} (h : Conn.Flat S P c F T) (hn : c.noIdChain = true) :
    ∃ c', Conn.flatten ops c = some c' ∧ c'.fromD = [F] ∧ c'.toD = [T] ∧ c'.Simple ∧
      ∀ mg mg' a u v, Conn.call mg c a = some u → Conn.call mg' c' a = some v →
        AgreeOn T u v := by
  obtain ⟨c', h1, h2, h3⟩ := flatten_spec hx c h hn
  have h4 := (flatten_hasDirect c h1).1
  have hends : c'.fromD = [F] ∧ c'.toD = [T] := by
    match c' with
    | .direct d =>
      rw [Conn.Flat] at h2
      obtain ⟨_, _, _, _, o, _⟩ := h2
      exact ⟨o.fromD, o.toD⟩
    | .ident D =>
      rw [Conn.Flat] at h2
      obtain ⟨rfl, _, rfl⟩ := h2
      exact ⟨rfl, rfl⟩
  refine ⟨c', h1, hends.1, hends.2, h4, ?_⟩
  intro mg mg' a u v hu hv e i hi
  rw [call_eff hx.sound c h hu e i hi, call_eff hx.sound c' h2 hv e i hi, h3 a e i hi]

omit [CommRing R] in
/-- C26: a nonempty chain without any direct connection cannot be flattened (`IndexError`). -/
theorem C26_identities {ops : NodeOps R U} {l : List (Conn R U)} {f t : List (DGroup R U)} {s : Bool}
    (hl : l ≠ []) (hd : Conn.hasDirectList l = false) :
    Conn.flatten ops (.chained l f t s) = none := by
  cases hf : Conn.flatten ops (.chained l f t s) with
  | none => rfl
  | some c' =>
    obtain ⟨h1, h2⟩ := flatten_hasDirect _ hf
    match l with
    | [] => exact absurd rfl hl
    | d :: ds =>
      rw [Conn.flatten, Option.bind_eq_some_iff] at hf
      obtain ⟨d', _, hf⟩ := hf
      rw [Option.bind_eq_some_iff] at hf
      obtain ⟨ds', _, hf⟩ := hf
      split at hf
      · simp at hf
      · rw [Option.map_eq_some_iff] at hf
        obtain ⟨m, _, rfl⟩ := hf
        rw [Conn.hasDirect, Conn.hasDirect, hd] at h2
        simp at h2

/-! ### Examples -/

/-- Two nodes per element; the unit nodes of a batch may be exchanged (`true`).
(Specification or proof vocabulary, no code.) -/
def swapGroup (n : Nat) : DGroup Int Bool :=
  ⟨n, 2, fun u i j => if j = (if u then 1 - i else i) then 1 else 0,
    fun u => if u then some [1, 0] else some [0, 1]⟩

/-- (Specification or proof vocabulary, no code.) -/
def swapOps : NodeOps Int Bool := ⟨fun _ u _ v => u.xor v, fun u v => u == v⟩

theorem swapOps_exact : ExactNodes swapOps (fun G => ∃ n, G = swapGroup n) fun _ _ _ => True := by
  have hsound : ∀ n, PickSound (swapGroup n) := by
    intro n u I hI i hi
    cases u <;> simp only [swapGroup, Option.some.injEq, if_true, if_false, Bool.false_eq_true] at hI
    · subst hI
      simp only [List.length_cons, List.length_nil] at hi
      interval_cases i <;> simp [swapGroup]
    · subst hI
      simp only [List.length_cons, List.length_nil] at hi
      interval_cases i <;> simp [swapGroup]
  refine ⟨?_, ?_, ?_, ?_⟩
  · rintro F ⟨n, rfl⟩
    exact hsound n
  · rintro F T ⟨n, rfl⟩ ⟨m, rfl⟩ w _ I hI
    cases w <;> simp only [swapGroup, Option.some.injEq, if_true, if_false, Bool.false_eq_true] at hI
      <;> subst hI <;> rfl
  · intros; trivial
  · rintro F M T ⟨n, rfl⟩ ⟨m, rfl⟩ ⟨k, rfl⟩ u v w _ _ _ hw i hi k hk
    have hw' : w = u.xor v := by
      rcases hw with h | h
      · exact h
      · simp only [swapOps, beq_iff_eq] at h
        exact h.symm
    subst hw'
    simp only [swapGroup] at hi hk ⊢
    simp only [Finset.sum_range_succ, Finset.sum_range_zero]
    interval_cases i <;> interval_cases k <;> cases u <;> cases v <;> rfl

/-- (Specification or proof vocabulary, no code.) -/
def swapFirst : DirectConn Int Bool :=
  ⟨[swapGroup 2], [swapGroup 3], [[⟨0, [1, 0], [0, 2], true, none⟩, ⟨0, [0], [1], false, none⟩]], true⟩

/-- (Specification or proof vocabulary, no code.) -/
def swapSecond : DirectConn Int Bool :=
  ⟨[swapGroup 3], [swapGroup 2], [[⟨0, [2], [1], true, some 1⟩, ⟨0, [0], [0], false, none⟩]], true⟩

/-- (Specification or proof vocabulary, no code.) -/
def swapChain : Conn Int Bool :=
  .chained [.direct swapFirst, .ident [swapGroup 3],
    .chained [.direct swapSecond] [swapGroup 3] [swapGroup 2] true] [swapGroup 2] [swapGroup 2] true

theorem swapChain_flat :
    Conn.Flat (fun G => ∃ n, G = swapGroup n) (fun _ _ _ => True) swapChain (swapGroup 2)
      (swapGroup 2) ∧ swapChain.noIdChain = true := by
  have h1 : DirectConn.Flat (fun G => ∃ n, G = swapGroup n) (fun _ _ _ => True) swapFirst
      (swapGroup 2) (swapGroup 3) := by
    refine ⟨⟨rfl, ?_⟩, ⟨2, rfl⟩, ⟨3, rfl⟩, _, ⟨rfl, rfl, rfl, by decide⟩, fun _ _ => trivial⟩
    intro t bs tg ht htg b hb
    have htl : t < 1 := (List.getElem?_eq_some_iff.1 ht).1
    interval_cases t
    cases ht
    cases htg
    fin_cases hb <;>
      exact ⟨rfl, by decide, by decide, _, rfl, by decide, by
        intro I hI; simp only [swapGroup] at hI; cases hI; rfl⟩
  have h2 : DirectConn.Flat (fun G => ∃ n, G = swapGroup n) (fun _ _ _ => True) swapSecond
      (swapGroup 3) (swapGroup 2) := by
    refine ⟨⟨rfl, ?_⟩, ⟨3, rfl⟩, ⟨2, rfl⟩, _, ⟨rfl, rfl, rfl, by decide⟩, fun _ _ => trivial⟩
    intro t bs tg ht htg b hb
    have htl : t < 1 := (List.getElem?_eq_some_iff.1 ht).1
    interval_cases t
    cases ht
    cases htg
    fin_cases hb <;>
      exact ⟨rfl, by decide, by decide, _, rfl, by decide, by
        intro I hI; simp only [swapGroup] at hI; cases hI; rfl⟩
  refine ⟨?_, by decide +kernel⟩
  unfold swapChain
  simp only [Conn.Flat, Conn.FlatList]
  exact ⟨trivial, trivial, _, h1, _, ⟨rfl, ⟨3, rfl⟩, rfl⟩, _, ⟨rfl, rfl, _, h2, rfl, ⟨2, rfl⟩⟩, rfl, ⟨2, rfl⟩⟩

/-- The hypotheses of `C26_flatten_partial` are met, and both sides are defined. -/
example : ((Conn.flatten swapOps swapChain).bind fun c => c.call true exAry).map
      (flattenDof [swapGroup 2]) = some [4, 3, 1, 2] ∧
    (swapChain.call true exAry).map (flattenDof [swapGroup 2]) = some [4, 3, 1, 2] := by
  decide +kernel

/-- Two source groups, two target groups. (Specification or proof vocabulary, no code.) -/
def twoGroupsFirst : DirectConn Int Bool :=
  ⟨[swapGroup 1, swapGroup 1], [swapGroup 2],
    [[⟨0, [0], [0], false, none⟩, ⟨1, [0], [1], false, none⟩]], true⟩

/-- (Specification or proof vocabulary, no code.) -/
def twoGroupsSecond : DirectConn Int Bool :=
  ⟨[swapGroup 2], [swapGroup 1, swapGroup 1],
    [[⟨0, [0], [0], false, none⟩], [⟨0, [1], [0], false, none⟩]], true⟩

/-- (Specification or proof vocabulary, no code.) -/
def twoGroupsChain : Conn Int Bool :=
  .chained [.direct twoGroupsFirst, .direct twoGroupsSecond] twoGroupsFirst.fromD
    twoGroupsSecond.toD true

/-- With two target groups the flattened connection sets the elements of the second one in the
first, with data of the wrong source group, and leaves the second one zero. -/
theorem C26_groups_counterexample :
    (twoGroupsChain.call true exAry).map (flattenDof twoGroupsSecond.toD) = some [1, 2, 11, 12] ∧
    ((Conn.flatten swapOps twoGroupsChain).bind fun c => c.call true exAry).map
      (flattenDof twoGroupsSecond.toD) = some [1, 2, 0, 0] := by
  decide +kernel

/-- Two groups in the middle. (Specification or proof vocabulary, no code.) -/
def middleChain : Conn Int Bool :=
  .chained [.direct ⟨[swapGroup 2], [swapGroup 1, swapGroup 1],
      [[⟨0, [0], [0], false, none⟩], [⟨0, [1], [0], false, none⟩]], true⟩,
    .direct ⟨[swapGroup 1, swapGroup 1], [swapGroup 2],
      [[⟨0, [0], [0], false, none⟩, ⟨1, [0], [1], false, none⟩]], true⟩]
    [swapGroup 2] [swapGroup 2] true

/-- With two groups in the middle, the flattened connection has two groups for one target group. -/
theorem C26_middle_counterexample :
    ((Conn.flatten swapOps middleChain).bind Conn.direct?).map (fun c =>
      (c.groups.length, c.toD.length)) = some (2, 1) := by
  decide +kernel

/-- Two batches of the first connection set the same element: the chain adds, the flattened
connection keeps the last. (Specification or proof vocabulary, no code.) -/
def repeatChain : Conn Int Bool :=
  .chained [.direct ⟨[swapGroup 2], [swapGroup 1],
      [[⟨0, [0], [0], false, none⟩, ⟨0, [1], [0], true, none⟩]], true⟩,
    .direct ⟨[swapGroup 1], [swapGroup 1], [[⟨0, [0], [0], false, none⟩]], true⟩]
    [swapGroup 2] [swapGroup 1] true

theorem C26_repeated_counterexample :
    (repeatChain.call true exAry).map (flattenDof [swapGroup 1]) = some [5, 5] ∧
    ((Conn.flatten swapOps repeatChain).bind fun c => c.call true exAry).map
      (flattenDof [swapGroup 1]) = some [7, 7] := by
  decide +kernel

example : Conn.flatten swapOps (.chained [.ident [swapGroup 2], .chained [] [swapGroup 2]
    [swapGroup 2] true] [swapGroup 2] [swapGroup 2] true) = none :=
  C26_identities (by simp) (by decide +kernel)

end Meshmode
