import Verif.Refine.Elements

/-!
# Refinement: sharing of new vertices (C19)
-/
namespace Meshmode

variable {N P : Type}

/-- The midpoint table is sound: numbers are below `n`, and different edges have different
numbers. (Specification or proof vocabulary, no code.) -/
def TableOK (table : List ((Nat × Nat) × Nat)) (n : Nat) : Prop :=
  (∀ k m, table.lookup k = some m → m < n) ∧
  ∀ k k' m, table.lookup k = some m → table.lookup k' = some m → k = k'

/-- How the refiner's state grows; `Q k p`: `p` may be the position of the midpoint of edge `k`.
(Specification or proof vocabulary, no code.) -/
structure Grows (Q : Nat × Nat → P → Prop) (s s' : RState P) : Prop where
  ok : TableOK s'.table s'.inew
  ext : ∀ k m, s.table.lookup k = some m → s'.table.lookup k = some m
  pre : s.added <+: s'.added
  cnt : s'.inew + s.added.length = s.inew + s'.added.length
  new : ∀ k m, s'.table.lookup k = some m → s.table.lookup k = some m ∨
    (s.inew ≤ m ∧ ∃ p, s'.added[s.added.length + (m - s.inew)]? = some p ∧ Q k p)

theorem Grows.refl {Q : Nat × Nat → P → Prop} {s : RState P} (h : TableOK s.table s.inew) :
    Grows Q s s :=
  ⟨h, fun _ _ h => h, List.prefix_refl _, rfl, fun _ _ h => Or.inl h⟩

theorem Grows.mono {Q Q' : Nat × Nat → P → Prop} (hQ : ∀ k p, Q k p → Q' k p) {s s' : RState P}
    (h : Grows Q s s') : Grows Q' s s' :=
  ⟨h.ok, h.ext, h.pre, h.cnt, fun k m hm => (h.new k m hm).imp_right
    fun ⟨h1, p, h2, h3⟩ => ⟨h1, p, h2, hQ k p h3⟩⟩

theorem Grows.trans {Q : Nat × Nat → P → Prop} {s s' s'' : RState P} (h : Grows Q s s')
    (h' : Grows Q s' s'') : Grows Q s s'' := by
  refine ⟨h'.ok, fun k m hm => h'.ext k m (h.ext k m hm), h.pre.trans h'.pre, ?_, ?_⟩
  · have := h.cnt; have := h'.cnt; omega
  · have hp := h.pre.length_le
    have hp' := h'.pre.length_le
    have hc := h.cnt
    have hc' := h'.cnt
    intro k m hm
    rcases h'.new k m hm with h1 | ⟨h1, p, h2, h3⟩
    · rcases h.new k m h1 with h4 | ⟨h4, p, h5, h6⟩
      · exact Or.inl h4
      · refine Or.inr ⟨h4, p, ?_, h6⟩
        obtain ⟨l, hl⟩ := h'.pre
        rw [← hl, List.getElem?_append_left (List.getElem?_eq_some_iff.1 h5).1, h5]
    · refine Or.inr ⟨by omega, p, ?_, h3⟩
      rw [← h2]
      congr 1
      omega

theorem midStep_spec {row : List Nat} {pt : P} {pair : Nat × Nat} {s s' : RState P} {m : Nat}
    (hok : TableOK s.table s.inew) (h : midStep row pt pair s = some (m, s')) :
    ∃ a b, row[pair.1]? = some a ∧ row[pair.2]? = some b ∧
      s'.table.lookup (edgeKey a b) = some m ∧
      Grows (fun k p => k = edgeKey a b ∧ p = pt) s s' := by
  unfold midStep at h
  split at h
  · rename_i a b ha hb
    refine ⟨a, b, ha, hb, ?_⟩
    split at h
    · rename_i m' hm'
      simp only [Option.some.injEq, Prod.mk.injEq] at h
      obtain ⟨rfl, rfl⟩ := h
      exact ⟨hm', Grows.refl hok⟩
    · rename_i hnone
      simp only [Option.some.injEq, Prod.mk.injEq] at h
      obtain ⟨rfl, rfl⟩ := h
      have hl : ∀ k, List.lookup k ((edgeKey a b, s.inew) :: s.table) =
          if k = edgeKey a b then some s.inew else s.table.lookup k := by
        intro k
        rw [List.lookup_cons]
        by_cases hk : k = edgeKey a b
        · subst hk; simp
        · rw [beq_eq_false_iff_ne.2 hk]; simp [hk]
      refine ⟨by rw [hl, if_pos rfl], ⟨?_, ?_⟩, ?_, ?_, ?_, ?_⟩
      · intro k m hm
        simp only [hl] at hm
        split at hm
        · simp only [Option.some.injEq] at hm; simp only; omega
        · exact Nat.lt_succ_of_lt (hok.1 k m hm)
      · intro k k' m hm hm'
        simp only [hl] at hm hm'
        split at hm <;> split at hm'
        · rename_i h1 h2; rw [h1, h2]
        · simp only [Option.some.injEq] at hm
          have := hok.1 k' m hm'
          omega
        · simp only [Option.some.injEq] at hm'
          have := hok.1 k m hm
          omega
        · exact hok.2 k k' m hm hm'
      · intro k m hm
        simp only [hl]
        rw [if_neg]
        · exact hm
        · rintro rfl; rw [hnone] at hm; simp at hm
      · exact List.prefix_append _ _
      · simp; omega
      · intro k m hm
        simp only [hl] at hm
        split at hm
        · rename_i hk
          simp only [Option.some.injEq] at hm
          subst hm
          exact Or.inr ⟨Nat.le_refl _, pt, by simp, hk, rfl⟩
        · exact Or.inl hm
  · simp at h

theorem elMids_spec {row : List Nat} {pt : Nat → P} {l : List ((Nat × Nat) × Nat)}
    {s s' : RState P} {mids : List Nat} (hok : TableOK s.table s.inew)
    (h : elMids row pt l s = some (mids, s')) :
    mids.length = l.length ∧
    (∀ (j : Nat) pair im, l[j]? = some (pair, im) → ∃ a b m, row[pair.1]? = some a ∧
      row[pair.2]? = some b ∧ mids[j]? = some m ∧ s'.table.lookup (edgeKey a b) = some m) ∧
    Grows (fun k p => ∃ pair im a b, (pair, im) ∈ l ∧ row[pair.1]? = some a ∧
      row[pair.2]? = some b ∧ k = edgeKey a b ∧ p = pt im) s s' := by
  induction l generalizing s mids with
  | nil =>
    simp only [elMids, Option.some.injEq, Prod.mk.injEq] at h
    obtain ⟨rfl, rfl⟩ := h
    exact ⟨rfl, by simp, Grows.refl hok⟩
  | cons x l ih =>
    obtain ⟨pair, im⟩ := x
    simp only [elMids] at h
    split at h
    · simp at h
    · rename_i m s1 h1
      split at h
      · simp at h
      · rename_i ms s2 h2
        simp only [Option.some.injEq, Prod.mk.injEq] at h
        obtain ⟨rfl, rfl⟩ := h
        obtain ⟨a, b, ha, hb, hm, hg⟩ := midStep_spec hok h1
        obtain ⟨i1, i2, i3⟩ := ih hg.ok h2
        refine ⟨by simp [i1], ?_, ?_⟩
        · intro j pair' im' hj
          cases j with
          | zero =>
            simp only [List.getElem?_cons_zero, Option.some.injEq, Prod.mk.injEq] at hj
            obtain ⟨rfl, rfl⟩ := hj
            exact ⟨a, b, m, ha, hb, rfl, i3.ext _ _ hm⟩
          | succ j => exact i2 j pair' im' (by simpa using hj)
        · refine (hg.mono ?_).trans (i3.mono ?_)
          · rintro k p ⟨rfl, rfl⟩
            exact ⟨pair, im, a, b, List.mem_cons_self, ha, hb, rfl, rfl⟩
          · rintro k p ⟨pair', im', a', b', hm', h⟩
            exact ⟨pair', im', a', b', List.mem_cons_of_mem _ hm', h⟩

/-- The midpoints of element `e`, as the table has them.
(Specification or proof vocabulary, no code.) -/
def ElMidsOK (t : Tess) (row mids : List Nat) (table : List ((Nat × Nat) × Nat)) : Prop :=
  ∀ (j : Nat) pair, t.midPairs[j]? = some pair → ∃ a b m, row[pair.1]? = some a ∧
    row[pair.2]? = some b ∧ mids[j]? = some m ∧ table.lookup (edgeKey a b) = some m

/-- `p` is the position computed for the midpoint of edge `k` in one of the elements `es`.
(Specification or proof vocabulary, no code.) -/
def MidpointOf (t : Tess) (rows : List (List Nat)) (pt : Nat → Nat → P) (es : List Nat)
    (k : Nat × Nat) (p : P) : Prop :=
  ∃ e ∈ es, ∃ (im : Nat) (pair : Nat × Nat) (row : List Nat) (a b : Nat),
    rows[e]? = some row ∧ t.midPairs[im]? = some pair ∧ row[pair.1]? = some a ∧
    row[pair.2]? = some b ∧ k = edgeKey a b ∧ p = pt e im

theorem refineEls_spec {t : Tess} {rows : List (List Nat)} {pt : Nat → Nat → P} {es : List Nat}
    {s s' : RState P} {ch : List (Nat × List (List Nat))} (hok : TableOK s.table s.inew)
    (h : refineEls t rows pt es s = some (ch, s')) :
    Grows (MidpointOf t rows pt es) s s' ∧
    ∀ e c, (e, c) ∈ ch → ∃ row mids rv, rows[e]? = some row ∧ ElMidsOK t row mids s'.table ∧
      mids.length = t.midPairs.length ∧ refiningVertices t row mids = some rv ∧
      childRows t rv = some c := by
  induction es generalizing s ch with
  | nil =>
    simp only [refineEls, Option.some.injEq, Prod.mk.injEq] at h
    obtain ⟨rfl, rfl⟩ := h
    exact ⟨Grows.refl hok, by simp⟩
  | cons e es ih =>
    simp only [refineEls] at h
    split at h
    · simp at h
    · rename_i row hrow
      split at h
      · simp at h
      · rename_i mids s1 h1
        split at h
        · simp at h
        · rename_i c hc
          split at h
          · simp at h
          · rename_i rest s2 hr
            simp only [Option.some.injEq, Prod.mk.injEq] at h
            obtain ⟨rfl, rfl⟩ := h
            obtain ⟨m1, m2, m3⟩ := elMids_spec hok h1
            obtain ⟨i1, i2⟩ := ih m3.ok hr
            refine ⟨(m3.mono ?_).trans (i1.mono ?_), ?_⟩
            · rintro k p ⟨pair, im, a, b, hm, ha, hb, rfl, rfl⟩
              exact ⟨e, List.mem_cons_self, im, pair, row, a, b, hrow,
                List.mem_zipIdx_iff_getElem?.1 hm, ha, hb, rfl, rfl⟩
            · rintro k p ⟨e', he', h⟩
              exact ⟨e', List.mem_cons_of_mem _ he', h⟩
            · intro e' c' hm
              rcases List.mem_cons.1 hm with heq | hm
              · simp only [Prod.mk.injEq] at heq
                obtain ⟨rfl, rfl⟩ := heq
                obtain ⟨rv, hrv, hcr⟩ := Option.bind_eq_some_iff.1 hc
                refine ⟨row, mids, rv, hrow, ?_, by simpa using m1, hrv, hcr⟩
                intro j pair hj
                obtain ⟨a, b, m, ha, hb, hmj, hl⟩ := m2 j pair j (by
                  rw [List.getElem?_zipIdx, hj]; simp)
                exact ⟨a, b, m, ha, hb, hmj, i1.ext _ _ hl⟩
              · exact i2 e' c' hm

/-- The reference vertices are, each once, the original vertices and the midpoints, and every
midpoint has its pair (as computed by `tessInfo`). (Specification or proof vocabulary, no code.) -/
def Tess.OK (t : Tess) : Prop :=
  (t.origIdx ++ t.midIdx).Nodup ∧ t.midPairs.length = t.midIdx.length

theorem lookup_reverse_zip {l : List Nat} {v : List Nat} (hn : l.Nodup) {i k x : Nat}
    (h1 : l[i]? = some k) (h2 : v[i]? = some x) : (l.zip v).reverse.lookup k = some x := by
  have hmem : (k, x) ∈ (l.zip v).reverse :=
    List.mem_reverse.2 (List.mem_iff_getElem?.2 ⟨i, List.getElem?_zip_eq_some.2 ⟨h1, h2⟩⟩)
  cases hl : (l.zip v).reverse.lookup k with
  | none => simpa using List.lookup_eq_none_iff.1 hl (k, x) hmem
  | some y =>
    obtain ⟨l1, l2, he, _⟩ := List.lookup_eq_some_iff.1 hl
    have hy : (k, y) ∈ l.zip v := List.mem_reverse.1 (by rw [he]; simp)
    obtain ⟨j, hj⟩ := List.mem_iff_getElem?.1 hy
    obtain ⟨h3, h4⟩ := List.getElem?_zip_eq_some.1 hj
    have : i = j := (List.getElem?_inj (List.getElem?_eq_some_iff.1 h1).1 hn).1 (h1.trans h3.symm)
    subst this
    simp only at h4
    rw [h4] at h2
    exact h2

theorem refiningVertices_spec {t : Tess} (ht : t.OK) {row mids rv : List Nat}
    (h : refiningVertices t row mids = some rv) :
    (∀ (k x : Nat), rv[k]? = some x → x ∈ row ++ mids) ∧
    (∀ (k p : Nat) x, rv[k]? = some x → t.origIdx[p]? = some k → row[p]? = some x) ∧
    (∀ (k i : Nat) x, rv[k]? = some x → t.midIdx[i]? = some k → mids[i]? = some x) := by
  unfold refiningVertices at h
  split at h
  · rename_i hlen
    obtain ⟨h1, h2⟩ := mapM_getElem?_some h
    have key : ∀ (k x : Nat), rv[k]? = some x →
        ((t.origIdx ++ t.midIdx).zip (row ++ mids)).reverse.lookup k = some x := by
      intro k x hx
      have hk := (List.getElem?_eq_some_iff.1 hx).1
      rw [h1] at hk
      obtain ⟨b, hb, hb'⟩ := h2 k k (by
        rw [List.getElem?_range]; simpa using hk)
      rw [hx] at hb
      cases hb
      exact hb'
    refine ⟨?_, ?_, ?_⟩
    · intro k x hx
      obtain ⟨l1, l2, he, _⟩ := List.lookup_eq_some_iff.1 (key k x hx)
      have hy : (k, x) ∈ (t.origIdx ++ t.midIdx).zip (row ++ mids) :=
        List.mem_reverse.1 (by rw [he]; simp)
      exact (List.of_mem_zip hy).2
    · intro k p x hx hp
      have hpl := (List.getElem?_eq_some_iff.1 hp).1
      have hr := List.getElem?_eq_getElem (l := row) (i := p) (by omega)
      have := lookup_reverse_zip ht.1 (v := row ++ mids)
        (by rw [List.getElem?_append_left hpl]; exact hp)
        (by rw [List.getElem?_append_left (by omega)]; exact hr)
      rw [key k x hx] at this
      rw [hr, this]
    · intro k i x hx hi
      have hil := (List.getElem?_eq_some_iff.1 hi).1
      have hr := List.getElem?_eq_getElem (l := mids) (i := i) (by omega)
      have := lookup_reverse_zip ht.1 (v := row ++ mids) (i := t.origIdx.length + i)
        (by rw [List.getElem?_append_right (by omega), Nat.add_sub_cancel_left]; exact hi)
        (by rw [List.getElem?_append_right (by omega),
              show t.origIdx.length + i - row.length = i by omega]; exact hr)
      rw [key k x hx] at this
      rw [hr, this]
  · simp at h

/-- Two pairs of vertices are the same edge. (Specification or proof vocabulary, no code.) -/
def SameEdge (a b a' b' : Nat) : Prop := (a = a' ∧ b = b') ∨ (a = b' ∧ b = a')

theorem edgeKey_eq_iff {a b a' b' : Nat} : edgeKey a b = edgeKey a' b' ↔ SameEdge a b a' b' := by
  unfold edgeKey SameEdge
  split <;> split <;> simp only [Prod.mk.injEq] <;> omega

/-- The rows of a refined group: what becomes of each flagged element. -/
theorem refineGroup_vertices {t : Tess} (ht : t.OK) {tn : Nat → List N} {pt : Nat → Nat → P}
    {nv : Nat} {g g' : ElGroup N} {flags : List Bool} {table : List ((Nat × Nat) × Nat)}
    {s : RState P} (hwf : g.vertexIndices.length = g.nodes.length)
    (hlen : flags.length = g.nelements)
    (htn : ∀ e, flags[e]? = some true → (tn e).length = t.children.length)
    (hok : TableOK table nv) (hval : ∀ row ∈ g.vertexIndices, ∀ v ∈ row, v < nv)
    (h : refineGroup t tn pt nv g flags table [] = some (g', s)) :
    Grows (MidpointOf t g.vertexIndices pt (npWhere flags)) ⟨table, nv, []⟩ s ∧
    (∀ row ∈ g'.vertexIndices, ∀ v ∈ row, v < nv + s.added.length) ∧
    ∀ (e : Nat) c, flags[e]? = some true → (elementMapping t flags)[e]? = some c →
      ∃ row mids, g.vertexIndices[e]? = some row ∧ ElMidsOK t row mids s.table ∧
        mids.length = t.midPairs.length ∧
        ∀ (j k : Nat) child, c[j]? = some k → t.children[j]? = some child →
          ∃ row', g'.vertexIndices[k]? = some row' ∧ row'.length = child.length ∧
            ∀ (q x : Nat), child[q]? = some x →
              (∀ p : Nat, t.origIdx[p]? = some x → row'[q]? = row[p]?) ∧
              (∀ im : Nat, t.midIdx[im]? = some x → row'[q]? = mids[im]?) := by
  obtain ⟨ch, hch, _, _, hv, hn⟩ := refineGroup_spec hwf hlen htn h
  obtain ⟨hg, hel⟩ := refineEls_spec hok hch
  obtain ⟨hc1, hc2⟩ := refineEls_children hch
  have hlen' : flags.length = g.nodes.length := hlen
  have hlk : ∀ i, flags[i]? = some true → ∃ l, ch.lookup i = some l ∧ (i, l) ∈ ch ∧
      l.length = t.children.length := by
    intro i hi
    have : i ∈ ch.map Prod.fst := by rw [hc1]; exact mem_npWhere.2 hi
    cases hl : ch.lookup i with
    | none =>
      obtain ⟨c, hc, rfl⟩ := List.mem_map.1 this
      simpa using List.lookup_eq_none_iff.1 hl c hc
    | some l =>
      obtain ⟨l1, l2, rfl, _⟩ := List.lookup_eq_some_iff.1 hl
      exact ⟨l, rfl, by simp, hc2 (i, l) (by simp)⟩
  have hbv := take_flatten_refineBlocks (t := t) (flags := flags) (old := g.vertexIndices)
    (ch := fun e => (ch.lookup e).getD []) (by omega) (by
      intro i hi
      obtain ⟨l, h1, _, h3⟩ := hlk i hi
      rw [h1]; exact h3)
  have hcnt : s.inew = nv + s.added.length := by have := hg.cnt; simpa using this
  refine ⟨hg, ?_, ?_⟩
  · intro row hrow v hvr
    rw [hv] at hrow
    obtain ⟨l, hl, hrl⟩ := List.mem_flatten.1 hrow
    obtain ⟨i, hi⟩ := List.mem_iff_getElem?.1 hl
    obtain ⟨a, f, h1, h2, rfl⟩ := refineBlocks_getElem?.1 hi
    cases f with
    | false =>
      simp only [Bool.false_eq_true, if_false, List.mem_singleton] at hrl
      subst hrl
      have := hval row (List.mem_of_getElem? h1) v hvr
      omega
    | true =>
      simp only [if_true] at hrl
      obtain ⟨l, e1, e2, e3⟩ := hlk i h2
      rw [e1] at hrl
      simp only [Option.getD_some] at hrl
      obtain ⟨row0, mids, rv, r1, r2, r3, r4, r5⟩ := hel i l e2
      obtain ⟨q1, q2⟩ := mapM_getElem?_some r5
      obtain ⟨j, hj⟩ := List.mem_iff_getElem?.1 hrl
      obtain ⟨jl, _⟩ := List.getElem?_eq_some_iff.1 hj
      obtain ⟨b, hb, hb'⟩ := q2 j _ (List.getElem?_eq_getElem (by omega))
      rw [hj] at hb
      cases hb
      obtain ⟨w1, w2⟩ := mapM_getElem?_some hb'
      obtain ⟨q, hq⟩ := List.mem_iff_getElem?.1 hvr
      obtain ⟨ql, _⟩ := List.getElem?_eq_some_iff.1 hq
      obtain ⟨y, hy, hy'⟩ := w2 q _ (List.getElem?_eq_getElem (by omega))
      rw [hq] at hy
      cases hy
      rcases List.mem_append.1 ((refiningVertices_spec ht r4).1 _ _ hy') with hm | hm
      · have := hval row0 (List.mem_of_getElem? r1) v hm
        omega
      · obtain ⟨im, him⟩ := List.mem_iff_getElem?.1 hm
        have himl := (List.getElem?_eq_some_iff.1 him).1
        obtain ⟨a', b', m, _, _, hm', hl'⟩ := r2 im _ (List.getElem?_eq_getElem (by omega))
        rw [him] at hm'
        cases hm'
        have := hg.ok.1 _ _ hl'
        omega
  · intro e c hf hc
    obtain ⟨l, e1, e2, e3⟩ := hlk e hf
    obtain ⟨row, mids, rv, r1, r2, r3, r4, r5⟩ := hel e l e2
    refine ⟨row, mids, r1, r2, r3, ?_⟩
    intro j k child hj hchild
    obtain ⟨he, rfl⟩ := elementMapping_getElem?.1 hc
    obtain ⟨hjl, hk⟩ := List.getElem?_eq_some_iff.1 hj
    simp only [List.length_range', List.getElem_range'] at hjl hk
    have hcount : (childCounts t flags).getD e 0 = t.children.length := by
      simp [childCounts, hf]
    rw [hcount, ← e3] at hjl
    have hfi := flatten_index (refineBlocks flags g.vertexIndices
      fun e => (ch.lookup e).getD []) (i := e) (l := l) (refineBlocks_getElem?.2 ⟨row, true, r1, hf,
        by rw [e1]; rfl⟩) (j := j) (a := l[j]) (List.getElem?_eq_getElem hjl)
    rw [hbv e, ← hv] at hfi
    refine ⟨l[j], by rw [← hk, Nat.one_mul, hfi], ?_⟩
    obtain ⟨q1, q2⟩ := mapM_getElem?_some r5
    obtain ⟨b, hb, hb'⟩ := q2 j child hchild
    rw [List.getElem?_eq_getElem hjl] at hb
    cases hb
    obtain ⟨w1, w2⟩ := mapM_getElem?_some hb'
    refine ⟨w1, fun q x hx => ?_⟩
    obtain ⟨y, hy, hy'⟩ := w2 q x hx
    obtain ⟨s1, s2, s3⟩ := refiningVertices_spec ht r4
    exact ⟨fun p hp => by rw [hy, s2 x p y hy' hp], fun im him => by rw [hy, s3 x im y hy' him]⟩

/-- A group without flagged elements leaves the refiner's table alone. -/
theorem refineGroup_noflags {t : Tess} {tn : Nat → List N} {pt : Nat → Nat → P} {nv : Nat}
    {g g' : ElGroup N} {flags : List Bool} {table : List ((Nat × Nat) × Nat)} {added : List P}
    {s : RState P} (hf : ∀ e : Nat, flags[e]? ≠ some true)
    (h : refineGroup t tn pt nv g flags table added = some (g', s)) :
    s.table = table ∧ s.added = added := by
  have : npWhere flags = [] := by
    rw [List.eq_nil_iff_forall_not_mem]
    intro e he
    exact hf e (mem_npWhere.1 he)
  unfold refineGroup at h
  rw [this] at h
  simp only [refineEls] at h
  split at h
  · simp only [Option.some.injEq, Prod.mk.injEq] at h
    obtain ⟨_, rfl⟩ := h
    exact ⟨rfl, rfl⟩
  · simp at h

theorem refineGroups_noflags {geo : Geo N P} {nv : Nat} {l : List (ElGroup N × List Bool)}
    {table table' : List ((Nat × Nat) × Nat)} {added added' : List P} {gs : List (ElGroup N)}
    (hf : ∀ p ∈ l, ∀ e : Nat, p.2[e]? ≠ some true)
    (h : refineGroups geo nv l table added = some (gs, table', added')) :
    table' = table ∧ added' = added := by
  induction l generalizing table added gs with
  | nil =>
    simp only [refineGroups, Option.some.injEq, Prod.mk.injEq] at h
    exact ⟨h.2.1.symm, h.2.2.symm⟩
  | cons p l ih =>
    obtain ⟨g0, f0⟩ := p
    simp only [refineGroups] at h
    split at h
    · simp at h
    · rename_i g0' s0 h0
      split at h
      · simp at h
      · rename_i gs' t' a' h1
        simp only [Option.some.injEq, Prod.mk.injEq] at h
        obtain ⟨rfl, rfl, rfl⟩ := h
        obtain ⟨e1, e2⟩ := refineGroup_noflags (hf (g0, f0) List.mem_cons_self) h0
        obtain ⟨e3, e4⟩ := ih (fun p hp => hf p (List.mem_cons_of_mem _ hp)) h1
        exact ⟨e3.trans e1, e4.trans e2⟩

/-- With flags in group `k` only, that group alone decides table and new vertices. -/
theorem refineGroups_one {geo : Geo N P} {nv : Nat} {l : List (ElGroup N × List Bool)}
    {table table' : List ((Nat × Nat) × Nat)} {added added' : List P} {gs : List (ElGroup N)}
    {k : Nat} (hf : ∀ (i : Nat) p, i ≠ k → l[i]? = some p → ∀ e : Nat, p.2[e]? ≠ some true)
    (h : refineGroups geo nv l table added = some (gs, table', added')) {g : ElGroup N}
    {f : List Bool} (hk : l[k]? = some (g, f)) :
    ∃ g', refineGroup (geo.tess g) (geo.tn g) (geo.pt g) nv g f table added =
      some (g', ⟨table', (refineEls (geo.tess g) g.vertexIndices (geo.pt g) (npWhere f)
        ⟨table, nv, added⟩).elim 0 (fun x => x.2.inew), added'⟩) ∧ gs[k]? = some g' := by
  induction l generalizing table added gs k with
  | nil => simp at hk
  | cons p l ih =>
    obtain ⟨g0, f0⟩ := p
    simp only [refineGroups] at h
    split at h
    · simp at h
    · rename_i g0' s0 h0
      split at h
      · simp at h
      · rename_i gs' t' a' h1
        simp only [Option.some.injEq, Prod.mk.injEq] at h
        obtain ⟨rfl, rfl, rfl⟩ := h
        cases k with
        | zero =>
          simp only [List.getElem?_cons_zero, Option.some.injEq, Prod.mk.injEq] at hk
          obtain ⟨rfl, rfl⟩ := hk
          obtain ⟨e1, e2⟩ := refineGroups_noflags (fun p hp => by
            obtain ⟨i, hi⟩ := List.mem_iff_getElem?.1 hp
            exact hf (i + 1) p (by omega) (by simpa using hi)) h1
          refine ⟨g0', ?_, rfl⟩
          rw [h0, e1, e2]
          have : s0 = ⟨s0.table, (refineEls (geo.tess g0) g0.vertexIndices (geo.pt g0)
              (npWhere f0) ⟨table, nv, added⟩).elim 0 (fun x => x.2.inew), s0.added⟩ := by
            unfold refineGroup at h0
            split at h0
            · simp at h0
            · rename_i ch s hs
              split at h0
              · simp only [Option.some.injEq, Prod.mk.injEq] at h0
                rw [hs, ← h0.2]
                rfl
              · simp at h0
          rw [← this]
        | succ k =>
          obtain ⟨e1, e2⟩ := refineGroup_noflags (hf 0 (g0, f0) (by omega) rfl) h0
          rw [e1, e2] at h1
          obtain ⟨g', h2, h3⟩ := ih (k := k)
            (fun i p hi hp => hf (i + 1) p (by omega) (by simpa using hp))
            h1 (by simpa using hk)
          exact ⟨g', h2, by simpa using h3⟩

/-- What holds of the refiner between refinements: consistent groups, valid vertex numbers, sound
midpoint table. (Specification or proof vocabulary, no code.) -/
def Refiner.OK (r : Refiner N P) : Prop :=
  (∀ g ∈ r.groups, g.vertexIndices.length = g.nodes.length) ∧
  (∀ g ∈ r.groups, ∀ row ∈ g.vertexIndices, ∀ v ∈ row, v < r.vertices.length) ∧
  TableOK r.table r.vertices.length

/-- Flag of element `e` of group `i`. (Specification or proof vocabulary, no code.) -/
def Refiner.flagOf (r : Refiner N P) (flags : List Bool) (i e : Nat) : Option Bool :=
  flags[((r.groups.map ElGroup.nelements).take i).sum + e]?

/-- All flagged elements are in group `k`. (Specification or proof vocabulary, no code.) -/
def Refiner.FlagsIn (r : Refiner N P) (flags : List Bool) (k : Nat) : Prop :=
  ∀ (i : Nat) g e, i ≠ k → r.groups[i]? = some g → e < g.nelements →
    r.flagOf flags i e = some false

/-- C19: refine a mesh, with all flagged elements in one group.  The new mesh has valid vertex
numbers, keeps the old vertices, and there is a numbering `num e im` of the midpoints of the flagged
elements such that the children of element `e` use it, and the old vertices, where the template
says; two midpoints have the same number exactly when they belong to the same coarse edge; and a
midpoint that is a new vertex lies at the position computed for that edge in one of the elements.
(Missing: flagged elements in several groups, see `C19_two_groups_counterexample`.) -/
theorem C19_new_vertices_partial {geo : Geo N P} (hgeo : geo.OK) (ht : ∀ g, (geo.tess g).OK)
    {r r' : Refiner N P} (hr : r.OK) {flags : List Bool} (h : r.refine geo flags = some r')
    {k : Nat} (hk : r.FlagsIn flags k) :
    r'.OK ∧ r.vertices <+: r'.vertices ∧
    (∀ key m, r.table.lookup key = some m → r'.table.lookup key = some m) ∧
    ∀ g, r.groups[k]? = some g → ∃ (g' : ElGroup N) (mapping : List (List Nat))
        (num : Nat → Nat → Nat),
      r'.groups[k]? = some g' ∧ r'.records[k]? = some (geo.tess g, mapping) ∧
      -- the children use the numbering
      (∀ (e : Nat) c, r.flagOf flags k e = some true → mapping[e]? = some c →
        ∃ row, g.vertexIndices[e]? = some row ∧
        ∀ (j n : Nat) child, c[j]? = some n → (geo.tess g).children[j]? = some child →
          ∃ row', g'.vertexIndices[n]? = some row' ∧ row'.length = child.length ∧
            ∀ (q x : Nat), child[q]? = some x →
              (∀ p : Nat, (geo.tess g).origIdx[p]? = some x → row'[q]? = row[p]?) ∧
              (∀ im : Nat, (geo.tess g).midIdx[im]? = some x → row'[q]? = some (num e im))) ∧
      -- equal numbers mean equal edges
      (∀ (e e' im im' a b a' b' : Nat) pair pair' row row',
        e < g.nelements → e' < g.nelements →
        r.flagOf flags k e = some true → r.flagOf flags k e' = some true →
        g.vertexIndices[e]? = some row → g.vertexIndices[e']? = some row' →
        (geo.tess g).midPairs[im]? = some pair → (geo.tess g).midPairs[im']? = some pair' →
        row[pair.1]? = some a → row[pair.2]? = some b →
        row'[pair'.1]? = some a' → row'[pair'.2]? = some b' →
        (num e im = num e' im' ↔ SameEdge a b a' b')) ∧
      -- the table has them, and new ones are at the right place
      (∀ (e im a b : Nat) pair row, e < g.nelements → r.flagOf flags k e = some true →
        g.vertexIndices[e]? = some row → (geo.tess g).midPairs[im]? = some pair →
        row[pair.1]? = some a → row[pair.2]? = some b →
        r'.table.lookup (edgeKey a b) = some (num e im) ∧
        num e im < r'.vertices.length ∧
        (r.table.lookup (edgeKey a b) = none → r.vertices.length ≤ num e im ∧
          ∃ p, r'.vertices[num e im]? = some p ∧
            MidpointOf (geo.tess g) g.vertexIndices (geo.pt g)
              ((List.range g.nelements).filter fun e => r.flagOf flags k e = some true)
              (edgeKey a b) p)) := by
  obtain ⟨hwf, hval, htab⟩ := hr
  obtain ⟨c1, c2, c3, c4⟩ := C20_refine_elements hgeo hwf h
  unfold Refiner.refine at h
  split at h
  · simp at h
  rename_i hlen
  have hlen := not_not.1 hlen
  simp only at h
  split at h
  · simp at h
  rename_i gs table added hgs
  simp only [Option.some.injEq] at h
  have hgg := refineGroups_getElem hgs
  -- flags of each group
  have hfl : ∀ (i : Nat) g, r.groups[i]? = some g → ∃ f,
      (refineFlags r.groups flags)[i]? = some f ∧ f.length = g.nelements ∧
      ∀ e, e < g.nelements → f[e]? = r.flagOf flags i e := by
    intro i g hg
    exact refineFlags_getElem? hg hlen
  have hno : ∀ (i : Nat) p, i ≠ k → (r.groups.zip (refineFlags r.groups flags))[i]? = some p →
      ∀ e : Nat, p.2[e]? ≠ some true := by
    rintro i ⟨g, f⟩ hik hp e he
    obtain ⟨h1, h2⟩ := List.getElem?_zip_eq_some.1 hp
    obtain ⟨f', hf', hfl', hfe⟩ := hfl i g h1
    simp only at h1 h2 he
    rw [h2] at hf'
    cases hf'
    have hlt : e < g.nelements := hfl' ▸ (List.getElem?_eq_some_iff.1 he).1
    have := hk i g e hik h1 hlt
    rw [← hfe e hlt, he] at this
    simp at this
  -- unflagged groups keep their rows
  have hval' : ∀ (i : Nat) g f g', i ≠ k → r.groups[i]? = some g →
      (refineFlags r.groups flags)[i]? = some f → gs[i]? = some g' →
      ∀ row ∈ g'.vertexIndices, ∀ v ∈ row, v < r.vertices.length := by
    intro i g f g' hik hg hf hg' row hrow v hv
    obtain ⟨f', hf', hfl', hfe⟩ := hfl i g hg
    rw [hf] at hf'
    cases hf'
    obtain ⟨tab, ad, g'', s, h1, h2⟩ := hgg.2 i g f (List.getElem?_zip_eq_some.2 ⟨hg, hf⟩)
    rw [hg'] at h2
    cases h2
    have hnf : ∀ e : Nat, f[e]? ≠ some true :=
      hno i (g, f) hik (List.getElem?_zip_eq_some.2 ⟨hg, hf⟩)
    obtain ⟨ch, hch, _, _, hrows, _⟩ := refineGroup_spec (hwf g (List.mem_of_getElem? hg)) hfl'
      (fun e he => absurd he (hnf e)) h1
    rw [hrows] at hrow
    obtain ⟨l, hl, hrl⟩ := List.mem_flatten.1 hrow
    obtain ⟨j, hj⟩ := List.mem_iff_getElem?.1 hl
    obtain ⟨a, fl, h3, h4, rfl⟩ := refineBlocks_getElem?.1 hj
    cases fl with
    | true => exact absurd h4 (hnf j)
    | false =>
      simp only [Bool.false_eq_true, if_false, List.mem_singleton] at hrl
      subst hrl
      exact hval g (List.mem_of_getElem? hg) row (List.mem_of_getElem? h3) v hv
  have hgr : ∀ (i : Nat) g', gs[i]? = some g' → ∃ g f, r.groups[i]? = some g ∧
      (refineFlags r.groups flags)[i]? = some f := by
    intro i g' hi
    have hil := (List.getElem?_eq_some_iff.1 hi).1
    rw [hgg.1, List.length_zip] at hil
    exact ⟨_, _, List.getElem?_eq_getElem (by omega), List.getElem?_eq_getElem (by omega)⟩
  have e2 : r'.vertices = r.vertices ++ added := by rw [← h]
  have e3 : r'.table = table := by rw [← h]
  have e4 : r'.groups = gs := by rw [← h]
  have hpre : r.vertices <+: r'.vertices := by rw [e2]; exact List.prefix_append _ _
  cases hgk : r.groups[k]? with
  | none =>
    have hnil := refineGroups_noflags (fun p hp => by
      obtain ⟨i, hi⟩ := List.mem_iff_getElem?.1 hp
      refine hno i p ?_ hi
      rintro rfl
      obtain ⟨h1, _⟩ := List.getElem?_zip_eq_some.1 hi
      rw [hgk] at h1
      simp at h1) hgs
    refine ⟨⟨c3, ?_, ?_⟩, hpre, ?_, by simp⟩
    · intro g' hg' row hrow v hv
      rw [e4] at hg'
      obtain ⟨i, hi⟩ := List.mem_iff_getElem?.1 hg'
      obtain ⟨g, f, hg, hf⟩ := hgr i g' hi
      have hik : i ≠ k := by rintro rfl; rw [hgk] at hg; simp at hg
      have := hval' i g f g' hik hg hf hi row hrow v hv
      have := hpre.length_le
      omega
    · rw [e2, e3, hnil.1, hnil.2, List.append_nil]; exact htab
    · rw [e3, hnil.1]; exact fun _ _ h => h
  | some g =>
    obtain ⟨f, hf, hfll, hfe⟩ := hfl k g hgk
    obtain ⟨g', hg1, hg2⟩ := refineGroups_one hno hgs (List.getElem?_zip_eq_some.2 ⟨hgk, hf⟩)
    generalize hs : ((⟨table, _, added⟩ : RState P)) = s at hg1
    have hst : s.table = table := by rw [← hs]
    have hsa : s.added = added := by rw [← hs]
    have htn : ∀ (e : Nat), f[e]? = some true →
        (geo.tn g e).length = (geo.tess g).children.length := fun e he =>
      hgeo g e (hfll ▸ (List.getElem?_eq_some_iff.1 he).1)
    obtain ⟨v1, v2, v3⟩ := refineGroup_vertices (ht g) (hwf g (List.mem_of_getElem? hgk)) hfll htn
      htab (hval g (List.mem_of_getElem? hgk)) hg1
    have hcnt : s.inew = r.vertices.length + added.length := by
      have := v1.cnt; rw [hsa] at this; simpa using this
    have hvl : r'.vertices.length = r.vertices.length + added.length := by
      rw [e2, List.length_append]
    have hok' : TableOK r'.table r'.vertices.length := by
      rw [e3, hvl, ← hcnt, ← hst]; exact v1.ok
    obtain ⟨g'', mapping, hg'', hrec, hex, _⟩ := c4 k g hgk
    rw [e4, hg2] at hg''
    cases hg''
    have hmap : mapping = elementMapping (geo.tess g) f := by
      rw [← h] at hrec
      simp only at hrec
      rw [List.getElem?_map, List.getElem?_zip_eq_some (z := (g, f)) |>.2 ⟨hgk, hf⟩] at hrec
      simp only [Option.map_some, Option.some.injEq, Prod.mk.injEq, true_and] at hrec
      exact hrec.symm
    refine ⟨⟨c3, ?_, hok'⟩, hpre, ?_, ?_⟩
    · intro gx hgx row hrow v hv
      rw [e4] at hgx
      obtain ⟨i, hi⟩ := List.mem_iff_getElem?.1 hgx
      by_cases hik : i = k
      · subst hik
        rw [hg2] at hi
        cases hi
        have := v2 row hrow v hv
        rw [hsa] at this
        omega
      · obtain ⟨g0, f0, hg0, hf0⟩ := hgr i gx hi
        have := hval' i g0 f0 gx hik hg0 hf0 hi row hrow v hv
        have := hpre.length_le
        omega
    · intro key m hm
      rw [e3, ← hst]
      exact v1.ext key m hm
    · intro gg hgg'
      cases hgg'
      -- the numbering is read off the table
      let num : Nat → Nat → Nat := fun e im =>
        (do let row ← g.vertexIndices[e]?
            let pair ← (geo.tess g).midPairs[im]?
            let a ← row[pair.1]?
            let b ← row[pair.2]?
            table.lookup (edgeKey a b)).getD 0
      have hnum : ∀ {e im a b : Nat} {pair row}, g.vertexIndices[e]? = some row →
          (geo.tess g).midPairs[im]? = some pair → row[pair.1]? = some a → row[pair.2]? = some b →
          num e im = (table.lookup (edgeKey a b)).getD 0 := by
        intro e im a b pair row h1 h2 h3 h4
        simp only [num, h1, h2, h3, h4, Option.bind_eq_bind, Option.bind_some]
      have hlook : ∀ {e im a b : Nat} {pair row}, e < g.nelements →
          r.flagOf flags k e = some true → g.vertexIndices[e]? = some row →
          (geo.tess g).midPairs[im]? = some pair → row[pair.1]? = some a → row[pair.2]? = some b →
          table.lookup (edgeKey a b) = some (num e im) := by
        intro e im a b pair row he hfle h1 h2 h3 h4
        rw [← hfe e he] at hfle
        obtain ⟨row', mids, r1, r2, _⟩ := v3 e _ hfle
          (elementMapping_getElem?.2 ⟨by omega, rfl⟩)
        rw [h1] at r1
        cases r1
        obtain ⟨a', b', m, ha, hb, _, hl⟩ := r2 im pair h2
        rw [h3] at ha
        rw [h4] at hb
        cases ha
        cases hb
        rw [hst] at hl
        rw [hnum h1 h2 h3 h4, hl]
        rfl
      refine ⟨g', mapping, num, by rw [e4]; exact hg2, hrec, ?_, ?_, ?_⟩
      · intro e c hfle hc
        rw [hmap] at hc
        have he : e < g.nelements := by rw [← hfll]; exact (elementMapping_getElem?.1 hc).1
        rw [← hfe e he] at hfle
        obtain ⟨row, mids, r1, r2, r3, r4⟩ := v3 e c hfle hc
        refine ⟨row, r1, fun j n child hj hchild => ?_⟩
        obtain ⟨row', q1, q2, q3⟩ := r4 j n child hj hchild
        refine ⟨row', q1, q2, fun q x hx => ?_⟩
        obtain ⟨w1, w2⟩ := q3 q x hx
        refine ⟨w1, fun im him => ?_⟩
        have himl := (List.getElem?_eq_some_iff.1 him).1
        rw [← (ht g).2] at himl
        obtain ⟨a, b, m, ha, hb, hm, hl⟩ := r2 im _ (List.getElem?_eq_getElem himl)
        rw [w2 im him, hm, hnum r1 (List.getElem?_eq_getElem himl) ha hb, ← hst, hl]
        rfl
      · intro e e' im im' a b a' b' pair pair' row row' he he' hfl1 hfl2 h1 h2 h3 h4 h5 h6 h7 h8
        have l1 := hlook he hfl1 h1 h3 h5 h6
        have l2 := hlook he' hfl2 h2 h4 h7 h8
        rw [← edgeKey_eq_iff]
        constructor
        · intro heq
          rw [← heq] at l2
          rw [e3] at hok'
          exact hok'.2 _ _ _ l1 l2
        · intro heq
          rw [heq, l2] at l1
          exact (Option.some.inj l1).symm
      · intro e im a b pair row he hfl1 h1 h3 h5 h6
        have l1 := hlook he hfl1 h1 h3 h5 h6
        refine ⟨by rw [e3]; exact l1, hok'.1 _ _ (by rw [e3]; exact l1), fun hnone => ?_⟩
        rcases v1.new _ _ (by rw [hst]; exact l1) with hc | ⟨hge, p, hp, hq⟩
        · simp only at hc
          rw [hnone] at hc
          simp at hc
        · simp only [List.length_nil, Nat.zero_add] at hp hge
          refine ⟨hge, p, ?_, ?_⟩
          · rw [e2, List.getElem?_append_right hge, ← hsa]
            exact hp
          · obtain ⟨e1, he1, rest⟩ := hq
            refine ⟨e1, ?_, rest⟩
            rw [mem_npWhere] at he1
            have hlt : e1 < g.nelements := hfll ▸ (List.getElem?_eq_some_iff.1 he1).1
            rw [List.mem_filter]
            refine ⟨List.mem_range.2 hlt, ?_⟩
            rw [← hfe e1 hlt, he1]
            simp

/-- Refiners reached from a mesh by refinements that each flag elements of one group only.
(Specification or proof vocabulary, no code.) -/
inductive Reached (geo : Geo N P) (r0 : Refiner N P) : Refiner N P → Prop
  | init : Reached geo r0 r0
  | step {r r' : Refiner N P} {flags : List Bool} {k : Nat} : Reached geo r0 r →
      r.FlagsIn flags k → r.refine geo flags = some r' → Reached geo r0 r'

/-- C19, every history: vertex numbers stay valid, the midpoint table stays sound, and no
registered midpoint ever changes its number (so a later refinement of a neighbour finds the vertex
made for the shared edge). -/
theorem C19_history_partial {geo : Geo N P} (hgeo : geo.OK) (ht : ∀ g, (geo.tess g).OK)
    {vertices : List P} {groups : List (ElGroup N)} {c : Option Bool}
    (hwf : ∀ g ∈ groups, g.vertexIndices.length = g.nodes.length)
    (hval : ∀ g ∈ groups, ∀ row ∈ g.vertexIndices, ∀ v ∈ row, v < vertices.length)
    {r r' : Refiner N P} (h : Reached geo (Refiner.init vertices groups c) r)
    (h' : Reached geo r r') :
    r.OK ∧ r'.OK ∧ r.vertices <+: r'.vertices ∧
    ∀ key m, r.table.lookup key = some m → r'.table.lookup key = some m := by
  have h0 : r.OK := by
    clear h'
    induction h with
    | init => exact ⟨hwf, hval, by simp [Refiner.init, TableOK]⟩
    | step _ hk hr ih =>
      exact (C19_new_vertices_partial hgeo ht ih hr hk).1
  refine ⟨h0, ?_⟩
  induction h' with
  | init => exact ⟨h0, List.prefix_refl _, fun _ _ h => h⟩
  | step _ hk hr ih =>
    obtain ⟨i1, i2, i3⟩ := ih
    obtain ⟨s1, s2, s3, _⟩ := C19_new_vertices_partial hgeo ht i1 hr hk
    exact ⟨s1, i2.trans s2, fun key m hm => s3 key m (i3 key m hm)⟩

theorem mapM_idxOf {L l : List (List Nat)} {idx : List Nat}
    (h : (l.mapM fun t => L.idxOf? t) = some idx) :
    idx.map (L[·]?) = l.map some := by
  obtain ⟨h1, h2⟩ := mapM_getElem?_some h
  apply List.ext_getElem?
  intro i
  rw [List.getElem?_map, List.getElem?_map]
  by_cases hi : i < l.length
  · obtain ⟨b, hb, hb'⟩ := h2 i _ (List.getElem?_eq_getElem hi)
    rw [hb, List.getElem?_eq_getElem hi]
    simp only [Option.map_some, Option.some.injEq]
    rw [List.idxOf?_eq_some_iff] at hb'
    obtain ⟨h3, h4, _⟩ := hb'
    rw [List.getElem?_eq_getElem h3, h4]
  · rw [List.getElem?_eq_none (by omega), List.getElem?_eq_none (by omega)]
    rfl

/-- The tessellation description computed by the code is as `C19_new_vertices_partial` wants it,
provided modepy lists no node twice. -/
theorem tessInfo_ok {ref1 ref2 children : List (List Nat)} {t : Tess} (h1 : ref1.Nodup)
    (h2 : ref2.Nodup) (h : tessInfo ref1 ref2 children = some t) : t.OK := by
  unfold tessInfo at h
  simp only [Option.bind_eq_bind, Option.bind_eq_some_iff, Option.pure_def,
    Option.some.injEq] at h
  obtain ⟨oi, ho, mi, hm, mp, hp, rfl⟩ := h
  refine ⟨?_, ?_⟩
  · have e1 := mapM_idxOf ho
    have e2 := mapM_idxOf hm
    simp only
    apply List.Nodup.of_map (ref2[·]?)
    rw [List.map_append, e1, e2, ← List.map_append]
    refine List.Nodup.map (fun _ _ h => Option.some.inj h) ?_
    rw [List.nodup_append]
    refine ⟨h1.map ?_, h2.filter _, ?_⟩
    · intro a b hab
      have : Function.Injective (fun x : Nat => 2 * x) := fun x y hxy => by
        simp only at hxy; omega
      exact List.map_injective_iff.2 this hab
    · rintro a ha b hb rfl
      have := (List.mem_filter.1 hb).2
      simp only [Bool.not_eq_true', ← Bool.not_eq_true, List.contains_iff_mem] at this
      exact this ha
  · rw [(mapM_getElem?_some hp).1, (mapM_getElem?_some hm).1]

/-- C19: the refined mesh is taken to be conforming exactly when the mesh was and the flags select
all elements or none. -/
theorem C19_conforming_flag {N P : Type} {geo : Geo N P} {r r' : Refiner N P} {flags : List Bool}
    (h : r.refine geo flags = some r') :
    r'.conforming = some true ↔
      r.conforming = some true ∧ ((∀ b ∈ flags, b = true) ∨ ∀ b ∈ flags, b = false) := by
  unfold Refiner.refine at h
  split at h
  · simp at h
  · simp only at h
    split at h
    · simp at h
    · obtain rfl := Option.some.inj h
      simp only [refinedConforming]
      by_cases hc : r.conforming = some true
      · simp [hc]
      · simp [hc]

/-! ### Examples -/

/-- Triangles: modepy's nodes of order 1 and 2 and the four children.
(Specification or proof vocabulary, no code.) -/
def triTess : Tess :=
  ⟨[[0, 1, 3], [1, 2, 4], [3, 4, 5], [1, 4, 3]], 6, [0, 2, 5], [1, 3, 4], [(0, 1), (0, 2), (1, 2)]⟩

example : tessInfo [[0, 0], [1, 0], [0, 1]] [[0, 0], [1, 0], [2, 0], [0, 1], [1, 1], [0, 2]]
    [[0, 1, 3], [1, 2, 4], [3, 4, 5], [1, 4, 3]] = some triTess := by decide +kernel

example : triTess.OK := tessInfo_ok (ref1 := [[0, 0], [1, 0], [0, 1]])
  (ref2 := [[0, 0], [1, 0], [2, 0], [0, 1], [1, 1], [0, 2]])
  (children := [[0, 1, 3], [1, 2, 4], [3, 4, 5], [1, 4, 3]]) (by decide) (by decide)
  (by decide +kernel)

/-- Doubled positions of midpoints, given positions of the vertices (the coordinates are kept
doubled so that they stay integers for one refinement).
(Specification or proof vocabulary, no code.) -/
def midGeo (t : Tess) (pos : List (List Nat)) : Geo Unit (List Nat) where
  tess _ := t
  tn _ _ := List.replicate t.children.length ()
  pt g e im := match g.vertexIndices[e]?, t.midPairs[im]? with
    | some row, some pair => match row[pair.1]?, row[pair.2]? with
      | some a, some b => ((pos.getD a []).zip (pos.getD b [])).map fun p => (p.1 + p.2) / 2
      | _, _ => []
    | _, _ => []

theorem midGeo_ok (t : Tess) (pos : List (List Nat)) : (midGeo t pos).OK := by
  intro g e _
  simp [midGeo]

/-- Two triangles of a square. (Specification or proof vocabulary, no code.) -/
def twoTriangles : Refiner Unit (List Nat) :=
  Refiner.init [[0, 0], [2, 0], [0, 2], [2, 2]]
    [⟨0, [[0, 1], [0, 2], [1, 2]], [[0, 1, 2], [3, 2, 1]], [(), ()]⟩] (some true)

/-- Both triangles are refined: the midpoint of the shared edge 1-2 is vertex 6 for both, and the
hypotheses of C19 and C20 hold. -/
example : ∃ r', twoTriangles.refine (midGeo triTess twoTriangles.vertices) [true, true] = some r' ∧
    twoTriangles.OK ∧ twoTriangles.FlagsIn [true, true] 0 ∧
    r'.vertices = [[0, 0], [2, 0], [0, 2], [2, 2], [1, 0], [0, 1], [1, 1], [1, 2], [2, 1]] ∧
    r'.groups.map ElGroup.vertexIndices = [[[0, 4, 5], [4, 1, 6], [5, 6, 2], [4, 6, 5],
      [3, 7, 8], [7, 2, 6], [8, 6, 1], [7, 6, 8]]] ∧ r'.conforming = some true := by
  refine ⟨_, rfl, ⟨by decide, by decide, by simp [twoTriangles, Refiner.init, TableOK]⟩, ?_,
    by decide +kernel, by decide +kernel, by decide +kernel⟩
  intro i g e hi hg
  have : i < 1 := (List.getElem?_eq_some_iff.1 hg).1
  omega

/-- Refined one after the other, the second refinement finds the vertex of the first. -/
example : ∃ r', twoTriangles.run (midGeo triTess twoTriangles.vertices)
      [[true, false], [false, false, false, false, true]] = some r' ∧
    r'.groups.map ElGroup.vertexIndices = [[[0, 4, 5], [4, 1, 6], [5, 6, 2], [4, 6, 5],
      [3, 7, 8], [7, 2, 6], [8, 6, 1], [7, 6, 8]]] ∧ r'.conforming = some false := by
  exact ⟨_, rfl, by decide +kernel, by decide +kernel⟩

/-- Two triangles apart from each other, each in its own group.
(Specification or proof vocabulary, no code.) -/
def apartTriangles : Refiner Unit (List Nat) :=
  Refiner.init [[0, 0], [2, 0], [0, 2], [10, 0], [12, 0], [10, 2]]
    [⟨0, [[0, 1], [0, 2], [1, 2]], [[0, 1, 2]], [()]⟩,
     ⟨0, [[0, 1], [0, 2], [1, 2]], [[3, 4, 5]], [()]⟩] (some true)

/-- C19 fails with flagged elements in two groups: the midpoint of the edge 0-1 of one triangle and
the midpoint of the edge 3-4 of the other, which is elsewhere, get the same vertex number 6; three
of the added vertices are used by no element. -/
theorem C19_two_groups_counterexample :
    apartTriangles.OK ∧ triTess.OK ∧ (midGeo triTess apartTriangles.vertices).OK ∧
    ∃ r', apartTriangles.refine (midGeo triTess apartTriangles.vertices) [true, true] = some r' ∧
      r'.vertices.length = 12 ∧
      r'.groups.map ElGroup.vertexIndices =
        [[[0, 6, 7], [6, 1, 8], [7, 8, 2], [6, 8, 7]],
         [[3, 6, 7], [6, 4, 8], [7, 8, 5], [6, 8, 7]]] ∧
      r'.vertices[6]? = some [1, 0] ∧ r'.vertices[9]? = some [11, 0] := by
  refine ⟨⟨by decide, by decide, by simp [apartTriangles, Refiner.init, TableOK]⟩,
    by unfold Tess.OK; decide, midGeo_ok _ _, _, rfl, by decide +kernel, by decide +kernel,
    by decide +kernel, by decide +kernel⟩

/-- Reference nodes of the cube with `n + 1` points per direction.
(Specification or proof vocabulary, no code.) -/
def cubeNodes (n : Nat) : List (List Nat) :=
  (List.range (n + 1)).flatMap fun z => (List.range (n + 1)).flatMap fun y =>
    (List.range (n + 1)).map fun x => [x, y, z]

/-- The eight children of the cube. (Specification or proof vocabulary, no code.) -/
def cubeChildren : List (List Nat) :=
  (cubeNodes 1).map fun o => (cubeNodes 1).map fun c =>
    (o.getD 0 0 + c.getD 0 0) + 3 * (o.getD 1 0 + c.getD 1 0) + 9 * (o.getD 2 0 + c.getD 2 0)

/-- Two hexahedra side by side; the second is turned by a quarter about the common axis.
(Specification or proof vocabulary, no code.) -/
def twoHexahedra : Refiner Unit (List Nat) :=
  Refiner.init ([[0, 0, 0], [2, 0, 0], [0, 2, 0], [2, 2, 0], [0, 0, 2], [2, 0, 2], [0, 2, 2],
      [2, 2, 2], [4, 0, 0], [4, 2, 0], [4, 0, 2], [4, 2, 2]])
    [⟨1, [], [[0, 1, 2, 3, 4, 5, 6, 7], [3, 9, 7, 11, 1, 8, 5, 10]], [(), ()]⟩] (some true)

/-- C19's sharing is by coarse *edge* (vertex pair), which is not enough on hexahedra: the centre of
a face is recorded under one of the face's diagonals, so two elements that number the common face
differently make two vertices in the same place. -/
theorem C19_hexahedra_counterexample : ∃ t, tessInfo (cubeNodes 1) (cubeNodes 2) cubeChildren =
      some t ∧ twoHexahedra.OK ∧ (midGeo t twoHexahedra.vertices).OK ∧
    ∃ r', twoHexahedra.refine (midGeo t twoHexahedra.vertices) [true, true] = some r' ∧
      r'.OK ∧
      ∃ a b, a ≠ b ∧ r'.vertices[a]? = some [2, 1, 1] ∧ r'.vertices[b]? = some [2, 1, 1] ∧
        ∃ g, r'.groups = [g] ∧ (∃ row, g.vertexIndices[1]? = some row ∧ a ∈ row) ∧
          ∃ row, g.vertexIndices[8]? = some row ∧ b ∈ row := by
  obtain ⟨t, ht⟩ : ∃ t, tessInfo (cubeNodes 1) (cubeNodes 2) cubeChildren = some t := ⟨_, rfl⟩
  have hok := tessInfo_ok (by decide +kernel) (by decide +kernel) ht
  have hr : twoHexahedra.OK :=
    ⟨by decide, by decide, by simp [twoHexahedra, Refiner.init, TableOK]⟩
  have hk : twoHexahedra.FlagsIn [true, true] 0 := by
    intro i g e hi hg
    have : i < 1 := (List.getElem?_eq_some_iff.1 hg).1
    omega
  have hv : ((tessInfo (cubeNodes 1) (cubeNodes 2) cubeChildren).bind fun t =>
      (twoHexahedra.refine (midGeo t twoHexahedra.vertices) [true, true]).map fun r =>
        ([r.vertices[22]?, r.vertices[37]?],
          r.groups.map fun g => [g.vertexIndices[1]?, g.vertexIndices[8]?])) =
      some ([some [2, 1, 1], some [2, 1, 1]], [[some [12, 1, 14, 15, 18, 19, 21, 22],
        some [3, 31, 25, 32, 15, 35, 37, 38]]]) := by decide +kernel
  rw [ht, Option.bind_some, Option.map_eq_some_iff] at hv
  obtain ⟨r', hr', hv⟩ := hv
  simp only [Prod.mk.injEq, List.cons.injEq, and_true] at hv
  obtain ⟨⟨v1, v2⟩, v3⟩ := hv
  have hgeo := midGeo_ok t twoHexahedra.vertices
  refine ⟨t, ht, hr, hgeo, r', hr',
    (C19_new_vertices_partial hgeo (fun _ => hok) hr hr' hk).1, 22, 37, by decide, v1, v2, ?_⟩
  obtain ⟨g, gs, hg, h1, h2⟩ := List.map_eq_cons_iff.1 v3
  simp only [List.cons.injEq, and_true] at h1
  exact ⟨g, by rw [hg, List.map_eq_nil_iff.1 h2], ⟨_, h1.1, by decide⟩, _, h1.2, by decide⟩

end Meshmode
