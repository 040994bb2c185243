import Verif.Connection.Flatten

/-!
# Flattening with several element groups (C26)

meshmode/discretization/connection/chained.py:78-264.  The module Flatten treats one element group
on every side, where flattening keeps the effect.  This module says what flattening produces for any
number of groups, when no two compositions have the same unit nodes.
-/
namespace Meshmode

variable {R U : Type}

/-- The new group that a pair of batches is meant for,
meshmode/discretization/connection/chained.py:137. -/
def quadGroup (nto : Nat) (q : (Nat × Batch U) × (Nat × Batch U)) : Nat := nto * q.1.1 + q.2.1

theorem findBatch_never {close : U → U → Bool} (hc : ∀ u v, close u v = false) (u : U)
    (info : List (List (BatchInfo U))) : findBatch close u info = none := by
  unfold findBatch
  rw [List.findSome?_eq_none_iff]
  intro p _
  rw [List.findSome?_eq_none_iff]
  intro q _
  simp [hc]

/-- What the loop records for the pair `q`. (Specification or proof vocabulary, no code.) -/
def InfoFor (ops : NodeOps R U) (fD tD : List (DGroup R U))
    (q : (Nat × Batch U) × (Nat × Batch U)) (x : BatchInfo U) : Prop :=
  ∃ ff tf, fD[q.1.2.fromGroup]? = some ff ∧ tD[q.2.2.fromGroup]? = some tf ∧
    x = ⟨ops.compose ff q.1.2.nodes tf q.2.2.nodes, q.1.2.fromGroup, q.2.2.face⟩

theorem placeQuads_never {ops : NodeOps R U} (hc : ∀ u v, ops.close u v = false)
    {fD tD : List (DGroup R U)} {nto : Nat} (qs : List ((Nat × Batch U) × (Nat × Batch U)))
    {info info' : List (List (BatchInfo U))} {ps : List (Nat × Nat)}
    (hq : ∀ q ∈ qs, quadGroup nto q < info.length)
    (h : placeQuads ops fD tD nto qs info = some (ps, info')) :
    info'.length = info.length ∧ ∀ k old, info[k]? = some old → ∃ new,
      info'[k]? = some (old ++ new) ∧
      List.Forall₂ (InfoFor ops fD tD) (qs.filter fun q => quadGroup nto q == k) new ∧
      (qs.zip ps).filter (fun x => x.2.1 == k) =
        ((qs.filter fun q => quadGroup nto q == k).zipIdx old.length).map fun x =>
          (x.1, (k, x.2)) := by
  induction qs generalizing info ps with
  | nil =>
    simp only [placeQuads, Option.some.injEq, Prod.mk.injEq] at h
    obtain ⟨rfl, rfl⟩ := h
    exact ⟨rfl, fun k old hk => ⟨[], by simpa using hk, by simp, by simp⟩⟩
  | cons q qs ih =>
    rw [placeQuads] at h
    split at h
    · simp at h
    rename_i p info1 hp
    split at h
    · simp at h
    rename_i ps' info2 hps
    simp only [Option.some.injEq, Prod.mk.injEq] at h
    obtain ⟨rfl, rfl⟩ := h
    unfold placeQuad at hp
    split at hp
    · rename_i ff tf hff htf
      simp only [findBatch_never hc, Option.some.injEq, Prod.mk.injEq] at hp
      obtain ⟨rfl, rfl⟩ := hp
      obtain ⟨i1, i2⟩ := ih (by
        intro q' hq'
        rw [List.length_modify]
        exact hq q' (List.mem_cons_of_mem _ hq')) hps
      refine ⟨by rw [i1, List.length_modify], ?_⟩
      intro k old hk
      by_cases hkq : quadGroup nto q = k
      · have hk' : nto * q.1.1 + q.2.1 = k := hkq
        obtain ⟨new, h1, h2, h3⟩ := i2 k (old ++ [⟨ops.compose ff q.1.2.nodes tf q.2.2.nodes,
          q.1.2.fromGroup, q.2.2.face⟩]) (by rw [hk', List.getElem?_modify_eq, hk]; rfl)
        refine ⟨_ :: new, by rw [h1, List.append_assoc]; rfl, ?_, ?_⟩
        · rw [List.filter_cons_of_pos (by simpa using hkq)]
          exact .cons ⟨ff, tf, hff, htf, rfl⟩ h2
        · rw [List.filter_cons_of_pos (by simpa using hkq), List.zip_cons_cons,
            List.filter_cons_of_pos (by simpa using hk'), h3, List.zipIdx_cons, List.map_cons]
          simp only [List.length_append, List.length_cons, List.length_nil, List.cons.injEq,
            Prod.mk.injEq, true_and]
          refine ⟨⟨hk', ?_⟩, trivial⟩
          rw [hk', List.getD_eq_getElem?_getD, hk]
          rfl
      · have hk' : ¬ nto * q.1.1 + q.2.1 = k := hkq
        obtain ⟨new, h1, h2, h3⟩ := i2 k old (by
          rw [List.getElem?_modify, hk]; simp [hk'])
        refine ⟨new, h1, ?_, ?_⟩
        · rw [List.filter_cons_of_neg (by simpa using hkq)]
          exact h2
        · rw [List.filter_cons_of_neg (by simpa using hkq), List.zip_cons_cons,
            List.filter_cons_of_neg (by simpa using hk'), h3]
    · simp at hp

theorem iterBatches_filter (groups : List (List (Batch U))) (i : Nat) :
    (iterBatches groups).filter (fun p => p.1 == i) =
      (groups.getD i []).map fun b => (i, b) := by
  have gen : ∀ (l : List (List (Batch U))) (n : Nat),
      ((l.zipIdx n).flatMap fun p => p.1.map fun b => (p.2, b)).filter (fun p => p.1 == n + i) =
        (l.getD i []).map fun b => (n + i, b) := by
    intro l
    induction l generalizing i with
    | nil => intro n; simp
    | cons a l ih =>
      intro n
      rw [List.zipIdx_cons, List.flatMap_cons, List.filter_append]
      cases i with
      | zero =>
        have h1 : (a.map fun b => (n, b)).filter (fun p => p.1 == n + 0) = a.map fun b => (n, b) := by
          rw [List.filter_eq_self]
          simp
        have h2 : ((l.zipIdx (n + 1)).flatMap fun p => p.1.map fun b => (p.2, b)).filter
            (fun p => p.1 == n + 0) = [] := by
          rw [List.filter_eq_nil_iff]
          intro x hx
          obtain ⟨⟨bs, k⟩, h3, h4⟩ := List.mem_flatMap.1 hx
          obtain ⟨b, _, rfl⟩ := List.mem_map.1 h4
          have := List.mem_zipIdx h3
          simp
          omega
        simp only at h1 h2 ⊢
        rw [h1, h2]
        simp
      | succ i =>
        have h1 : (a.map fun b => (n, b)).filter (fun p => p.1 == n + (i + 1)) = [] := by
          rw [List.filter_eq_nil_iff]
          simp
        simp only at h1 ⊢
        rw [h1, List.nil_append]
        have := ih i (n + 1)
        rw [show n + (i + 1) = n + 1 + i by omega]
        simpa using this
  have := gen groups 0
  simpa [iterBatches] using this

theorem batchQuads_filter {f t : List (List (Batch U))} {i j : Nat} (hj : j < t.length) :
    (batchQuads f t).filter (fun q => quadGroup t.length q == t.length * i + j) =
      (f.getD i []).flatMap fun fb => (t.getD j []).map fun tb => ((i, fb), (j, tb)) := by
  unfold batchQuads
  have h0 : ∀ p ∈ iterBatches t, p.1 < t.length := by
    intro p hp
    obtain ⟨⟨bs, k⟩, h3, h4⟩ := List.mem_flatMap.1 hp
    obtain ⟨b, _, rfl⟩ := List.mem_map.1 h4
    simpa using (List.mem_zipIdx h3).2.1
  have h1 : ∀ p : Nat × Batch U, ((iterBatches t).map fun q => (p, q)).filter
      (fun q => quadGroup t.length q == t.length * i + j) =
      if p.1 == i then (t.getD j []).map fun tb => (p, (j, tb)) else [] := by
    intro p
    by_cases hp : p.1 = i
    · rw [if_pos (by simpa using hp), List.filter_map]
      have h2 : (iterBatches t).filter ((fun q => quadGroup t.length q == t.length * i + j) ∘
          fun q => (p, q)) = (iterBatches t).filter fun q => q.1 == j := by
        apply List.filter_congr
        intro q _
        simp [quadGroup, hp]
      rw [h2, iterBatches_filter, List.map_map]
      rfl
    · rw [if_neg (by simpa using hp), List.filter_eq_nil_iff]
      intro x hx
      obtain ⟨q, hq, rfl⟩ := List.mem_map.1 hx
      have hq := h0 q hq
      simp only [quadGroup, beq_iff_eq]
      intro h
      apply hp
      have e1 : (t.length * p.1 + q.1) / t.length = p.1 := by
        rw [Nat.mul_add_div (by omega), Nat.div_eq_of_lt hq]; rfl
      have e2 : (t.length * i + j) / t.length = i := by
        rw [Nat.mul_add_div (by omega), Nat.div_eq_of_lt hj]; rfl
      rw [← e1, h, e2]
  rw [List.filter_flatMap]
  have h3 : ∀ l : List (Nat × Batch U), (l.flatMap fun p =>
      (if p.1 == i then (t.getD j []).map fun tb => (p, (j, tb)) else [])) =
      (l.filter fun p => p.1 == i).flatMap fun p => (t.getD j []).map fun tb => (p, (j, tb)) := by
    intro l
    induction l with
    | nil => rfl
    | cons a l ih =>
      rw [List.flatMap_cons, ih]
      by_cases ha : a.1 == i
      · rw [if_pos ha, List.filter_cons_of_pos (by exact ha), List.flatMap_cons]
      · rw [if_neg ha, List.filter_cons_of_neg (by exact ha), List.nil_append]
  have h4 : (fun p => ((iterBatches t).map fun q => (p, q)).filter
      (fun q => quadGroup t.length q == t.length * i + j)) = fun p : Nat × Batch U =>
      if p.1 == i then (t.getD j []).map fun tb => (p, (j, tb)) else [] := funext h1
  rw [h4, h3, iterBatches_filter, List.flatMap_map]

theorem filter_zipIdx_map {A : Type} (k : Nat) (l : List A) (c n : Nat) (hn : n < l.length) :
    ((l.zipIdx c).map fun x => (x.1, (k, x.2))).filter (fun x => x.2.2 == c + n) =
      [(l[n], (k, c + n))] := by
  induction l generalizing c n with
  | nil => simp at hn
  | cons a l ih =>
    rw [List.zipIdx_cons, List.map_cons]
    cases n with
    | zero =>
      rw [List.filter_cons_of_pos (by simp)]
      have : ((l.zipIdx (c + 1)).map fun x => (x.1, (k, x.2))).filter
          (fun x => x.2.2 == c + 0) = [] := by
        rw [List.filter_eq_nil_iff]
        intro x hx
        obtain ⟨⟨b, m⟩, h3, rfl⟩ := List.mem_map.1 hx
        have := List.mem_zipIdx h3
        simp
        omega
      rw [this]
      simp
    | succ n =>
      rw [List.filter_cons_of_neg (by simp), show c + (n + 1) = c + 1 + n by omega,
        ih (c + 1) n (by simpa using hn)]
      simp

/-- The batch `b` is the composition of the batch `fb` and then `tb`: it reads the group that `fb`
reads, at unit nodes composed of both, sets the face that `tb` sets, and it takes element `y` to
element `e` when `fb` takes `y` to some `x` and `tb` takes `x` to `e`.
(Specification or proof vocabulary, no code.) -/
def ComposedOf (ops : NodeOps R U) (fD tD : List (DGroup R U)) (fb tb b : Batch U) : Prop :=
  b.fromGroup = fb.fromGroup ∧ b.face = tb.face ∧
    (∃ ff tf, fD[fb.fromGroup]? = some ff ∧ tD[tb.fromGroup]? = some tf ∧
      b.nodes = ops.compose ff fb.nodes tf tb.nodes) ∧
    ∀ e y, (e, y) ∈ b.pairs ↔ ∃ x, (e, x) ∈ tb.pairs ∧ (x, y) ∈ fb.pairs

theorem elTable_group {f : List (List (Batch U))} {i : Nat} {fbs : List (Batch U)}
    (hi : f[i]? = some fbs) (x : Nat) : elTable f i x = elTable [fbs] 0 x := by
  unfold elTable
  rw [List.getD_eq_getElem?_getD, hi]
  rfl

theorem quadPairs_group {f : List (List (Batch U))} {i j : Nat} {fbs : List (Batch U)}
    (hi : f[i]? = some fbs) (fb tb : Batch U) :
    quadPairs f ((i, fb), (j, tb)) = quadPairs [fbs] ((0, fb), (0, tb)) := by
  unfold quadPairs
  simp only [elTable_group hi]

/-- C26: for any number of groups, if no two compositions are taken to be the same, the flattened
connection of two has one group for each pair of groups, the pair `(i, j)` at position
`len(to_conn.groups) * i + j`, and its batches are the compositions of the pairs of batches, those
of the first connection in the outer loop. -/
theorem C26_product_groups {ops : NodeOps R U} (hc : ∀ u v, ops.close u v = false) {surj : Bool}
    {f t m : DirectConn R U}
    (hfd : ∀ fbs ∈ f.groups, (fbs.flatMap Batch.toEls).Nodup ∧
      ∀ b ∈ fbs, b.fromEls.length = b.toEls.length)
    (h : mergeConn ops surj f t = some m) :
    m.fromD = f.fromD ∧ m.toD = t.toD ∧ m.surjective = surj ∧
    m.groups.length = f.groups.length * t.groups.length ∧
    ∀ i j fbs tbs, f.groups[i]? = some fbs → t.groups[j]? = some tbs → ∃ bs,
      m.groups[t.groups.length * i + j]? = some bs ∧
      List.Forall₂ (fun q b => ComposedOf ops f.fromD t.fromD q.1 q.2 b)
        (fbs.flatMap fun fb => tbs.map fun tb => (fb, tb)) bs := by
  unfold mergeConn at h
  split at h
  · simp at h
  rename_i ps info hp
  simp only [Option.some.injEq] at h
  subst h
  have hrange : ∀ q ∈ batchQuads f.groups t.groups, quadGroup t.groups.length q <
      (List.replicate (f.groups.length * t.groups.length) ([] : List (BatchInfo U))).length := by
    intro q hq
    obtain ⟨p, hp', hq⟩ := List.mem_flatMap.1 hq
    obtain ⟨p', hp'', rfl⟩ := List.mem_map.1 hq
    have h0 : ∀ (g : List (List (Batch U))), ∀ p ∈ iterBatches g, p.1 < g.length := by
      intro g p hp
      obtain ⟨⟨bs, k⟩, h3, h4⟩ := List.mem_flatMap.1 hp
      obtain ⟨b, _, rfl⟩ := List.mem_map.1 h4
      simpa using (List.mem_zipIdx h3).2.1
    have a1 := h0 _ p hp'
    have a2 := h0 _ p' hp''
    rw [List.length_replicate, quadGroup]
    calc t.groups.length * p.1 + p'.1 < t.groups.length * p.1 + t.groups.length := by
          exact Nat.add_lt_add_left a2 _
      _ = t.groups.length * (p.1 + 1) := by rw [Nat.mul_succ]
      _ ≤ t.groups.length * f.groups.length := Nat.mul_le_mul_left _ a1
      _ = _ := Nat.mul_comm _ _
  obtain ⟨hl, hk⟩ := placeQuads_never hc _ hrange hp
  refine ⟨rfl, rfl, rfl, by simp [hl], ?_⟩
  intro i j fbs tbs hi hj
  have hil := (List.getElem?_eq_some_iff.1 hi).1
  have hjl := (List.getElem?_eq_some_iff.1 hj).1
  have hlt : t.groups.length * i + j < f.groups.length * t.groups.length := by
    calc t.groups.length * i + j < t.groups.length * i + t.groups.length :=
          Nat.add_lt_add_left hjl _
      _ = t.groups.length * (i + 1) := by rw [Nat.mul_succ]
      _ ≤ t.groups.length * f.groups.length := Nat.mul_le_mul_left _ hil
      _ = _ := Nat.mul_comm _ _
  obtain ⟨new, h1, h2, h3⟩ := hk (t.groups.length * i + j) [] (by
    rw [List.getElem?_replicate, if_pos hlt])
  rw [batchQuads_filter hjl, List.getD_eq_getElem?_getD, List.getD_eq_getElem?_getD, hi, hj,
    Option.getD_some, Option.getD_some] at h2 h3
  rw [List.nil_append] at h1
  refine ⟨_, by rw [List.getElem?_map, List.getElem?_zipIdx, h1]; rfl, ?_⟩
  have hQ : (fbs.flatMap fun fb => tbs.map fun tb =>
      (((i, fb), (j, tb)) : (Nat × Batch U) × (Nat × Batch U))) =
      (fbs.flatMap fun fb => tbs.map fun tb => (fb, tb)).map fun q => ((i, q.1), (j, q.2)) := by
    rw [List.map_flatMap]
    simp only [List.map_map]
    rfl
  rw [hQ] at h2 h3
  generalize hQd : (fbs.flatMap fun fb => tbs.map fun tb => (fb, tb)) = Q at h2 h3
  have hfb : ∀ q ∈ Q, q.1 ∈ fbs := by
    intro q hq
    rw [← hQd] at hq
    obtain ⟨fb, hfb, hq⟩ := List.mem_flatMap.1 hq
    obtain ⟨tb, _, rfl⟩ := List.mem_map.1 hq
    exact hfb
  have hlen : Q.length = new.length := by simpa using h2.length_eq
  rw [List.forall₂_iff_get]
  refine ⟨by simpa using hlen, ?_⟩
  intro n hn1 hn2
  have hn : n < new.length := hlen ▸ hn1
  have hx := (List.forall₂_iff_get.1 h2).2 n (by simpa using hn1) hn
  simp only [List.get_eq_getElem, List.getElem_map] at hx
  obtain ⟨ff, tf, e1, e2, e3⟩ := hx
  simp only at e1 e2 e3
  simp only [List.get_eq_getElem, List.getElem_map, List.getElem_zipIdx, Nat.zero_add]
  have hsel : ((batchQuads f.groups t.groups).zip ps).filter (fun x =>
      x.2 == (t.groups.length * i + j, n)) =
      [(((i, Q[n].1), (j, Q[n].2)), (t.groups.length * i + j, n))] := by
    have e4 : ((batchQuads f.groups t.groups).zip ps).filter (fun x =>
        x.2 == (t.groups.length * i + j, n)) = (((batchQuads f.groups t.groups).zip ps).filter
          (fun x => x.2.1 == t.groups.length * i + j)).filter fun x => x.2.2 == n := by
      rw [List.filter_filter]
      apply List.filter_congr
      intro x _
      rw [Bool.eq_iff_iff]
      simp only [beq_iff_eq, Bool.and_eq_true, Prod.ext_iff]
      exact and_comm
    rw [e4, h3]
    have := filter_zipIdx_map (t.groups.length * i + j)
      (Q.map fun q => (((i, q.1), (j, q.2)) : (Nat × Batch U) × (Nat × Batch U))) 0 n
      (by simpa using hn1)
    simpa using this
  rw [hsel]
  simp only [List.flatMap_cons, List.flatMap_nil, List.append_nil]
  refine ⟨by rw [e3], by rw [e3], ⟨ff, tf, e1, e2, by rw [e3]⟩, ?_⟩
  intro e y
  rw [quadPairs_group hi]
  obtain ⟨d1, d2⟩ := hfd fbs (List.mem_of_getElem? hi)
  have hm := hfb Q[n] (List.getElem_mem _)
  rw [← mem_quadPairs d1 hm (d2 _ hm)]
  generalize quadPairs [fbs] ((0, Q[n].1), (0, Q[n].2)) = l
  unfold Batch.pairs
  simp only
  induction l with
  | nil => simp
  | cons a l ih =>
    obtain ⟨a1, a2⟩ := a
    simp only [List.map_cons, List.zip_cons_cons, List.mem_cons, Prod.mk.injEq, ih]
    tauto

/-- Nodes are never the same. (Specification or proof vocabulary, no code.) -/
def neverOps : NodeOps Int Bool := ⟨fun _ u _ v => xor u v, fun _ _ => false⟩

/-- Two groups on each side; the second group takes from the first.
(Specification or proof vocabulary, no code.) -/
def crossConn : DirectConn Int Bool :=
  ⟨[swapGroup 2, swapGroup 2], [swapGroup 2, swapGroup 2],
    [[⟨0, [0], [0], true, none⟩, ⟨1, [1], [1], false, none⟩], [⟨0, [1, 0], [0, 1], true, some 3⟩]],
    true⟩

example : ∃ m, mergeConn neverOps true crossConn crossConn = some m ∧ m.groups.length = 2 * 2 ∧
    ∃ bs, m.groups[2 * 0 + 1]? = some bs ∧
      List.Forall₂ (fun q b => ComposedOf neverOps crossConn.fromD crossConn.fromD q.1 q.2 b)
        [((⟨0, [0], [0], true, none⟩ : Batch Bool), ⟨0, [1, 0], [0, 1], true, some 3⟩),
          (⟨1, [1], [1], false, none⟩, ⟨0, [1, 0], [0, 1], true, some 3⟩)] bs := by
  have h1 : (mergeConn neverOps true crossConn crossConn).isSome := by decide +kernel
  obtain ⟨m, hm⟩ := Option.isSome_iff_exists.1 h1
  obtain ⟨_, _, _, hl, hg⟩ := C26_product_groups (fun _ _ => rfl) (by decide +kernel) hm
  exact ⟨m, hm, hl, hg 0 1 _ _ rfl rfl⟩

end Meshmode
