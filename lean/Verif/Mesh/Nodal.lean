import Verif.Np
import Verif.Mesh.Types
import Verif.Mesh.Csr
import Mathlib.Data.List.Lattice

/-!
# Nodal adjacency (C04)

`_compute_nodal_adjacency_from_vertices` (meshmode/mesh/__init__.py:1613-1654).
-/
namespace Meshmode

variable {N : Type}

/-- The pairs (mesh-wide element number, its vertex row) in the order of the two double loops at
meshmode/mesh/__init__.py:1622-1628 and 1631-1637.  Rows missing from `vertex_indices` (an
`IndexError` in the code) are dropped; the theorems assume well-formed groups. -/
def elementEntries (groups : List (ElGroup N)) : List (Nat × List Nat) :=
  ((baseElementNrs (groups.map ElGroup.nelements)).zip groups).flatMap fun bg =>
    (List.range bg.2.nelements).filterMap fun i =>
      (bg.2.vertexIndices[i]?).map fun row => (bg.1 + i, row)

/-- `vertex_to_element[v].append(e)`, meshmode/mesh/__init__.py:1628; `none` is `IndexError`. -/
def appendAt (t : List (List Nat)) (v e : Nat) : Option (List (List Nat)) :=
  if v < t.length then some (t.modify v (· ++ [e])) else none

/-- `vertex_to_element`, meshmode/mesh/__init__.py:1620-1628. -/
def vertexToElement (nvertices : Nat) (entries : List (Nat × List Nat)) :
    Option (List (List Nat)) :=
  entries.foldlM (fun t er => er.2.foldlM (fun t v => appendAt t v er.1) t)
    (List.replicate nvertices [])

/-- `element_to_element[e].update(vertex_to_element[v])`, meshmode/mesh/__init__.py:1636-1637.
Sets are duplicate-free lists. -/
def updateAt (v2e : List (List Nat)) (t : List (List Nat)) (v e : Nat) :
    Option (List (List Nat)) := do
  let new ← v2e[v]?
  if e < t.length then some (t.modify e (new ∪ ·)) else none

/-- `element_to_element`, meshmode/mesh/__init__.py:1630-1637. -/
def elementToElement (v2e : List (List Nat)) (nelements : Nat) (entries : List (Nat × List Nat)) :
    Option (List (List Nat)) :=
  entries.foldlM (fun t er => er.2.foldlM (fun t v => updateAt v2e t v er.1) t)
    (List.replicate nelements [])

/-- `neighbors.remove(iel)`, meshmode/mesh/__init__.py:1639-1640; `none` is `KeyError`. -/
def removeSelf (sets : List (List Nat)) : Option (List (List Nat)) :=
  sets.zipIdx.mapM fun p => if p.2 ∈ p.1 then some (p.1.erase p.2) else none

/-- `_compute_nodal_adjacency_from_vertices`, meshmode/mesh/__init__.py:1613-1654: the pair
(`neighbors_starts`, `neighbors`), or `none` if an exception is raised.  `iter` is the order in
which Python iterates over a set.  A mesh without groups fails on `zip(..., strict=True)`,
since `base_element_nrs` has one entry. -/
def nodalAdjacency (iter : List Nat → List Nat) (nvertices : Nat) (groups : List (ElGroup N)) :
    Option (List Nat × List Nat) := do
  if groups.isEmpty then none else
    let entries := elementEntries groups
    let v2e ← vertexToElement nvertices entries
    let e2e ← elementToElement v2e (nelements (groups.map ElGroup.nelements)) entries
    let sets ← removeSelf e2e
    let lists := sets.map iter
    pure (cumsum (0 :: lists.map List.length), lists.flatten)

/-! ## Specification -/

/-- `row` is the vertex row of the element with mesh-wide number `e`.
(Specification or proof vocabulary, no code.) -/
def HasRow (groups : List (ElGroup N)) (e : Nat) (row : List Nat) : Prop :=
  ∃ g i grp, groups[g]? = some grp ∧ grp.vertexIndices[i]? = some row ∧
    IsGlobalNr (groups.map ElGroup.nelements) g i e

/-- Elements `e` and `e'` have a vertex in common. (Specification or proof vocabulary, no code.) -/
def ShareVertex (groups : List (ElGroup N)) (e e' : Nat) : Prop :=
  ∃ row row' v, HasRow groups e row ∧ HasRow groups e' row' ∧ v ∈ row ∧ v ∈ row'

/-! ## Lemmas -/

theorem mem_elementEntries {groups : List (ElGroup N)} {e : Nat} {row : List Nat} :
    (e, row) ∈ elementEntries groups → HasRow groups e row := by
  intro h
  simp only [elementEntries, List.mem_flatMap, List.mem_filterMap, List.mem_range,
    Option.map_eq_some_iff, Prod.mk.injEq] at h
  obtain ⟨⟨b, g⟩, hbg, i, hi, r, hr, rfl, rfl⟩ := h
  obtain ⟨k, hk⟩ := List.mem_iff_getElem?.1 hbg
  rw [List.getElem?_zip_eq_some] at hk
  obtain ⟨hb, hg⟩ := hk
  have hlt : k < (groups.map ElGroup.nelements).length := by
    rw [List.length_map]; exact (List.getElem?_eq_some_iff.1 hg).1
  rw [baseElementNrs_getElem? _ _ hlt] at hb
  cases hb
  exact ⟨k, i, g, hg, hr, g.nelements, by simp [hg], hi, rfl⟩

theorem elementEntries_mem {groups : List (ElGroup N)} {e : Nat} {row : List Nat} :
    HasRow groups e row → (e, row) ∈ elementEntries groups := by
  rintro ⟨k, i, g, hg, hr, n, hn, hi, rfl⟩
  have hlt : k < (groups.map ElGroup.nelements).length := by
    rw [List.length_map]; exact (List.getElem?_eq_some_iff.1 hg).1
  simp only [List.getElem?_map, hg, Option.map_some, Option.some.injEq] at hn
  subst hn
  simp only [elementEntries, List.mem_flatMap, List.mem_filterMap, List.mem_range,
    Option.map_eq_some_iff, Prod.mk.injEq]
  refine ⟨(((groups.map ElGroup.nelements).take k).sum, g), ?_, i, hi, row, hr, rfl, rfl⟩
  exact List.mem_of_getElem? (i := k)
    (List.getElem?_zip_eq_some.2 ⟨baseElementNrs_getElem? _ _ hlt, hg⟩)

theorem mem_elementEntries_iff {groups : List (ElGroup N)} {e : Nat} {row : List Nat} :
    (e, row) ∈ elementEntries groups ↔ HasRow groups e row :=
  ⟨mem_elementEntries, elementEntries_mem⟩

theorem hasRow_lt {groups : List (ElGroup N)} {e : Nat} {row : List Nat}
    (h : HasRow groups e row) : e < nelements (groups.map ElGroup.nelements) := by
  obtain ⟨k, i, g, hg, hr, hn⟩ := h
  exact (C01_numbering_bijective _ e).1.2 ⟨k, i, hn⟩

theorem exists_hasRow {groups : List (ElGroup N)} (hwf : ∀ g ∈ groups, g.WF) {e : Nat}
    (h : e < nelements (groups.map ElGroup.nelements)) : ∃ row, HasRow groups e row := by
  obtain ⟨k, i, n, hn, hi, he⟩ := (C01_numbering_bijective _ e).1.1 h
  rw [List.getElem?_map, Option.map_eq_some_iff] at hn
  obtain ⟨g, hg, rfl⟩ := hn
  have h2 : i < g.vertexIndices.length := by
    rw [(hwf g (List.mem_of_getElem? hg)).1]; exact hi
  exact ⟨_, k, i, g, hg, List.getElem?_eq_getElem h2, g.nelements, by simp [hg], hi, he⟩

theorem hasRow_unique {groups : List (ElGroup N)} {e : Nat} {row row' : List Nat}
    (h : HasRow groups e row) (h' : HasRow groups e row') : row = row' := by
  obtain ⟨k, i, g, hg, hr, hn⟩ := h
  obtain ⟨k', i', g', hg', hr', hn'⟩ := h'
  obtain ⟨rfl, rfl⟩ := (C01_numbering_bijective _ e).2 _ _ _ _ hn hn'
  rw [hg] at hg'; cases hg'
  rw [hr] at hr'; exact Option.some.inj hr'

/-- A fold of table updates `t[key ev] := f ev t[key ev]`, failing when out of range. -/
theorem foldlM_table {ε : Type} (key : ε → Nat) (f : ε → List Nat → Option (List Nat))
    (upd : List (List Nat) → ε → Option (List (List Nat)))
    (hupd : ∀ t ev t', upd t ev = some t' → t'.length = t.length ∧ key ev < t.length ∧
      ∀ k s, t[k]? = some s → if k = key ev then ∃ s', f ev s = some s' ∧ t'[k]? = some s'
        else t'[k]? = some s)
    (evs : List ε) (t t' : List (List Nat)) (h : evs.foldlM upd t = some t') :
    t'.length = t.length ∧ ∀ k s, t[k]? = some s → ∃ s', t'[k]? = some s' ∧
      (evs.filter (fun ev => decide (key ev = k))).foldlM (fun s ev => f ev s) s = some s' := by
  induction evs generalizing t with
  | nil =>
    simp only [List.foldlM_nil, Option.pure_def, Option.some.injEq] at h
    subst h
    exact ⟨rfl, fun k s hs => ⟨s, hs, by simp⟩⟩
  | cons ev evs ih =>
    rw [List.foldlM_cons] at h
    obtain ⟨t1, h1, h2⟩ := Option.bind_eq_some_iff.1 h
    obtain ⟨hl, _, hk⟩ := hupd t ev t1 h1
    obtain ⟨hl2, hk2⟩ := ih t1 h2
    refine ⟨hl2.trans hl, fun k s hs => ?_⟩
    have := hk k s hs
    by_cases hkk : k = key ev
    · rw [if_pos hkk] at this
      obtain ⟨s1, hf, hs1⟩ := this
      obtain ⟨s', hs', hfold⟩ := hk2 k s1 hs1
      refine ⟨s', hs', ?_⟩
      rw [List.filter_cons_of_pos (by simp [hkk]), List.foldlM_cons, hf]
      exact hfold
    · rw [if_neg hkk] at this
      obtain ⟨s', hs', hfold⟩ := hk2 k s this
      exact ⟨s', hs', by rw [List.filter_cons_of_neg (by simpa using Ne.symm hkk)]; exact hfold⟩

/-- The events of the double loops: (element, vertex) in order.
(Specification or proof vocabulary, no code.) -/
def events (entries : List (Nat × List Nat)) : List (Nat × Nat) :=
  entries.flatMap fun er => er.2.map fun v => (er.1, v)

theorem foldlM_events {σ : Type} (upd : σ → Nat → Nat → Option σ)
    (entries : List (Nat × List Nat)) (t : σ) :
    entries.foldlM (fun t er => er.2.foldlM (fun t v => upd t v er.1) t) t =
      (events entries).foldlM (fun t ev => upd t ev.2 ev.1) t := by
  induction entries generalizing t with
  | nil => rfl
  | cons er entries ih =>
    simp only [events, List.flatMap_cons, List.foldlM_append, List.foldlM_cons, List.foldlM_map]
    congr 1
    funext t'
    exact ih t'

theorem mem_events {entries : List (Nat × List Nat)} {e v : Nat} :
    (e, v) ∈ events entries ↔ ∃ row, (e, row) ∈ entries ∧ v ∈ row := by
  simp only [events, List.mem_flatMap, List.mem_map, Prod.mk.injEq]
  constructor
  · rintro ⟨⟨e', row⟩, h, v', hv, rfl, rfl⟩; exact ⟨row, h, hv⟩
  · rintro ⟨row, h, hv⟩; exact ⟨(e, row), h, v, hv, rfl, rfl⟩

theorem vertexToElement_spec {nv : Nat} {entries : List (Nat × List Nat)} {t : List (List Nat)}
    (h : vertexToElement nv entries = some t) :
    t.length = nv ∧ ∀ (v : Nat) s, t[v]? = some s →
      ∀ e : Nat, e ∈ s ↔ ∃ row, (e, row) ∈ entries ∧ v ∈ row := by
  unfold vertexToElement at h
  rw [foldlM_events] at h
  have := foldlM_table (fun ev : Nat × Nat => ev.2) (fun ev s => some (s ++ [ev.1])) _ ?_ _ _ _ h
  · obtain ⟨h1, h2⟩ := this
    rw [List.length_replicate] at h1
    refine ⟨h1, fun v s hs e => ?_⟩
    have hv : v < nv := by rw [← h1]; exact (List.getElem?_eq_some_iff.1 hs).1
    obtain ⟨s', hs', hf⟩ := h2 v [] (by simp [hv])
    rw [hs] at hs'; cases hs'
    rw [← mem_events]
    have key : ∀ (l : List (Nat × Nat)) (s0 s1 : List Nat),
        l.foldlM (fun s ev => some (s ++ [ev.1])) s0 = some s1 → s1 = s0 ++ l.map Prod.fst := by
      intro l
      induction l with
      | nil => intro s0 s1 h; simpa using h.symm
      | cons a l ih =>
        intro s0 s1 h
        rw [List.foldlM_cons] at h
        have := ih _ _ h
        rw [this]; simp
    rw [key _ _ _ hf]
    simp only [List.nil_append, List.mem_map, List.mem_filter, decide_eq_true_eq]
    constructor
    · rintro ⟨⟨a, b⟩, ⟨h3, rfl⟩, rfl⟩; exact h3
    · intro h3; exact ⟨(e, v), ⟨h3, rfl⟩, rfl⟩
  · intro t ev t' ht
    simp only [appendAt] at ht
    split at ht
    · rename_i hlt
      cases ht
      refine ⟨by simp, hlt, fun k s hs => ?_⟩
      split
      · rename_i hk; subst hk
        exact ⟨_, rfl, by simp [hs]⟩
      · rename_i hk
        rw [List.getElem?_modify, hs]; simp [Ne.symm hk]
    · simp at ht

theorem elementToElement_spec {v2e : List (List Nat)} {n : Nat} {entries : List (Nat × List Nat)}
    {t : List (List Nat)} (h : elementToElement v2e n entries = some t) :
    t.length = n ∧ ∀ (e : Nat) s, t[e]? = some s → s.Nodup ∧
      ∀ e' : Nat, e' ∈ s ↔
        ∃ row v l, (e, row) ∈ entries ∧ v ∈ row ∧ v2e[v]? = some l ∧ e' ∈ l := by
  unfold elementToElement at h
  rw [foldlM_events] at h
  have := foldlM_table (fun ev : Nat × Nat => ev.1)
    (fun ev s => (v2e[ev.2]?).map fun new => new ∪ s) _ ?_ _ _ _ h
  · obtain ⟨h1, h2⟩ := this
    rw [List.length_replicate] at h1
    refine ⟨h1, fun e s hs => ?_⟩
    have hv : e < n := by rw [← h1]; exact (List.getElem?_eq_some_iff.1 hs).1
    obtain ⟨s', hs', hf⟩ := h2 e [] (by simp [hv])
    rw [hs] at hs'; cases hs'
    have key : ∀ (l : List (Nat × Nat)) (s0 s1 : List Nat),
        l.foldlM (fun s (ev : Nat × Nat) => (v2e[ev.2]?).map fun new => new ∪ s) s0 = some s1 →
        s0.Nodup → s1.Nodup ∧ ∀ e' : Nat, e' ∈ s1 ↔ e' ∈ s0 ∨ ∃ ev ∈ l, ∃ l', v2e[ev.2]? = some l' ∧
          e' ∈ l' := by
      intro l
      induction l with
      | nil =>
        intro s0 s1 h hn
        simp only [List.foldlM_nil, Option.pure_def, Option.some.injEq] at h
        subst h; exact ⟨hn, by simp⟩
      | cons a l ih =>
        intro s0 s1 h hn
        rw [List.foldlM_cons] at h
        obtain ⟨s2, h3, h4⟩ := Option.bind_eq_some_iff.1 h
        obtain ⟨new, h5, rfl⟩ := Option.map_eq_some_iff.1 h3
        obtain ⟨h6, h7⟩ := ih _ _ h4 (hn.union _)
        refine ⟨h6, fun e' => ?_⟩
        rw [h7, List.mem_union_iff]
        constructor
        · rintro ((h8 | h8) | ⟨ev, h8, l', h9, h10⟩)
          · exact Or.inr ⟨a, by simp, new, h5, h8⟩
          · exact Or.inl h8
          · exact Or.inr ⟨ev, by simp [h8], l', h9, h10⟩
        · rintro (h8 | ⟨ev, h8, l', h9, h10⟩)
          · exact Or.inl (Or.inr h8)
          · rcases List.mem_cons.1 h8 with rfl | h8
            · rw [h5] at h9; cases h9; exact Or.inl (Or.inl h10)
            · exact Or.inr ⟨ev, h8, l', h9, h10⟩
    obtain ⟨hn, hm⟩ := key _ _ _ hf List.nodup_nil
    refine ⟨hn, fun e' => ?_⟩
    rw [hm]
    simp only [List.not_mem_nil, false_or, List.mem_filter, decide_eq_true_eq]
    constructor
    · rintro ⟨⟨a, b⟩, ⟨h3, rfl⟩, l', h4, h5⟩
      obtain ⟨row, h6, h7⟩ := mem_events.1 h3
      exact ⟨row, b, l', h6, h7, h4, h5⟩
    · rintro ⟨row, v, l', h6, h7, h4, h5⟩
      exact ⟨(e, v), ⟨mem_events.2 ⟨row, h6, h7⟩, rfl⟩, l', h4, h5⟩
  · intro t ev t' ht
    simp only [updateAt] at ht
    obtain ⟨new, hnew, ht⟩ := Option.bind_eq_some_iff.1 ht
    split at ht
    · rename_i hlt
      cases ht
      refine ⟨by simp, hlt, fun k s hs => ?_⟩
      split
      · rename_i hk; subst hk
        exact ⟨new ∪ s, by simp [hnew], by simp [hs]⟩
      · rename_i hk
        rw [List.getElem?_modify, hs]; simp [Ne.symm hk]
    · simp at ht

theorem mapM_getElem?_some {α β : Type} {f : α → Option β} {l : List α} {r : List β}
    (h : l.mapM f = some r) : r.length = l.length ∧
      ∀ (i : Nat) a, l[i]? = some a → ∃ b, r[i]? = some b ∧ f a = some b := by
  induction l generalizing r with
  | nil =>
    simp only [List.mapM_nil, Option.pure_def, Option.some.injEq] at h
    subst h; simp
  | cons x l ih =>
    rw [List.mapM_cons] at h
    obtain ⟨b, h1, h2⟩ := Option.bind_eq_some_iff.1 h
    obtain ⟨r', h3, h4⟩ := Option.bind_eq_some_iff.1 h2
    simp only [Option.pure_def, Option.some.injEq] at h4
    subst h4
    obtain ⟨h5, h6⟩ := ih h3
    refine ⟨by simp [h5], fun i a ha => ?_⟩
    cases i with
    | zero => simp at ha; subst ha; exact ⟨b, by simp, h1⟩
    | succ i => simp at ha; simpa using h6 i a ha

theorem removeSelf_spec {sets r : List (List Nat)} (h : removeSelf sets = some r) :
    r.length = sets.length ∧ ∀ (i : Nat) s, sets[i]? = some s →
      i ∈ s ∧ r[i]? = some (s.erase i) := by
  obtain ⟨h1, h2⟩ := mapM_getElem?_some h
  refine ⟨by simpa using h1, fun i s hs => ?_⟩
  obtain ⟨b, hb, h3⟩ := h2 i (s, i) (by simp [List.getElem?_zipIdx, hs])
  split at h3
  · rename_i h4
    cases h3
    exact ⟨h4, hb⟩
  · simp at h3

/-! ## Properties -/

/-- C04: whenever the computation succeeds, the two arrays are well formed, and the row of each
element lists exactly the other elements that share a vertex with it, each once.  `iter` is an
arbitrary iteration order for sets. -/
theorem C04_nodal_adjacency_is_vertex_sharing {iter : List Nat → List Nat}
    (hiter : ∀ s, (iter s).Perm s) {nv : Nat} {groups : List (ElGroup N)}
    {starts nbrs : List Nat}
    (h : nodalAdjacency iter nv groups = some (starts, nbrs)) :
    CsrValid starts nbrs (nelements (groups.map ElGroup.nelements)) ∧
    ∀ e, e < nelements (groups.map ElGroup.nelements) → ∃ row, csrRow starts nbrs e = some row ∧
      row.Nodup ∧ ∀ e', e' ∈ row ↔ e' ≠ e ∧ ShareVertex groups e e' := by
  unfold nodalAdjacency at h
  split at h
  · simp at h
  · obtain ⟨v2e, hv, h⟩ := Option.bind_eq_some_iff.1 h
    obtain ⟨e2e, he, h⟩ := Option.bind_eq_some_iff.1 h
    obtain ⟨sets, hs, h⟩ := Option.bind_eq_some_iff.1 h
    simp only [Option.pure_def, Option.some.injEq, Prod.mk.injEq] at h
    obtain ⟨rfl, rfl⟩ := h
    obtain ⟨v1, v2⟩ := vertexToElement_spec hv
    obtain ⟨e1, e2⟩ := elementToElement_spec he
    obtain ⟨r1, r2⟩ := removeSelf_spec hs
    have hlen : (sets.map iter).length = nelements (groups.map ElGroup.nelements) := by
      rw [List.length_map, r1, e1]
    refine ⟨by rw [← hlen]; exact csrValid_of_rows _, fun e hlt => ?_⟩
    have hes := List.getElem?_eq_getElem (l := e2e) (i := e) (by omega)
    obtain ⟨hn, hm⟩ := e2 e _ hes
    obtain ⟨_, hr⟩ := r2 e _ hes
    refine ⟨iter (e2e[e].erase e), by rw [csrRow_of_rows]; simp [hr], ?_, fun e' => ?_⟩
    · exact (hiter _).nodup_iff.2 (hn.erase e)
    · rw [(hiter _).mem_iff, hn.mem_erase_iff, hm]
      apply and_congr_right
      intro _
      constructor
      · rintro ⟨row, v, l, h1, h2, h3, h4⟩
        obtain ⟨row', h5, h6⟩ := (v2 v l h3 e').1 h4
        exact ⟨row, row', v, mem_elementEntries h1, mem_elementEntries h5, h2, h6⟩
      · rintro ⟨row, row', v, h1, h2, h3, h4⟩
        have h1' := elementEntries_mem h1
        have h2' := elementEntries_mem h2
        -- `v` is in range since the fold over `e`'s row succeeded
        have hvlt : v < v2e.length := by
          by_contra hc
          unfold vertexToElement at hv
          rw [foldlM_events] at hv
          have hbad : ∀ (evs : List (Nat × Nat)) (t t' : List (List Nat)),
              evs.foldlM (fun t ev => appendAt t ev.2 ev.1) t = some t' →
              ∀ ev ∈ evs, ev.2 < t'.length := by
            intro evs
            induction evs with
            | nil => simp
            | cons a evs ih =>
              intro t t' ht
              rw [List.foldlM_cons] at ht
              obtain ⟨t1, h7, h8⟩ := Option.bind_eq_some_iff.1 ht
              have hl : ∀ (evs : List (Nat × Nat)) (t t' : List (List Nat)),
                  evs.foldlM (fun t ev => appendAt t ev.2 ev.1) t = some t' →
                  t'.length = t.length := by
                intro evs
                induction evs with
                | nil => intro t t' h; simp at h; rw [h]
                | cons b evs ih2 =>
                  intro t t' h
                  rw [List.foldlM_cons] at h
                  obtain ⟨t2, h9, h10⟩ := Option.bind_eq_some_iff.1 h
                  rw [ih2 _ _ h10]
                  simp only [appendAt] at h9
                  split at h9 <;> simp at h9
                  rw [← h9]; simp
              intro ev hev
              rcases List.mem_cons.1 hev with rfl | hev
              · rw [hl _ _ _ h8]
                simp only [appendAt] at h7
                split at h7 <;> simp at h7
                rw [← h7]; simpa
              · exact ih _ _ h8 ev hev
          exact hc (hbad _ _ _ hv (e, v) (mem_events.2 ⟨row, h1', h3⟩))
        have hl := List.getElem?_eq_getElem hvlt
        exact ⟨row, v, _, h1', h3, hl, (v2 v _ hl e').2 ⟨row', h2', h4⟩⟩

theorem shareVertex_symm {groups : List (ElGroup N)} {e e' : Nat}
    (h : ShareVertex groups e e') : ShareVertex groups e' e := by
  obtain ⟨row, row', v, h1, h2, h3, h4⟩ := h
  exact ⟨row', row, v, h2, h1, h4, h3⟩

/-- C04: the relation is symmetric and irreflexive. -/
theorem C04_nodal_adjacency_symmetric {iter : List Nat → List Nat}
    (hiter : ∀ s, (iter s).Perm s) {nv : Nat} {groups : List (ElGroup N)}
    {starts nbrs : List Nat} (h : nodalAdjacency iter nv groups = some (starts, nbrs))
    {e e' : Nat} {row : List Nat} (hrow : csrRow starts nbrs e = some row) (hmem : e' ∈ row) :
    e' ≠ e ∧ ∃ row', csrRow starts nbrs e' = some row' ∧ e ∈ row' := by
  obtain ⟨hv, hspec⟩ := C04_nodal_adjacency_is_vertex_sharing hiter h
  have hlt : e < nelements (groups.map ElGroup.nelements) := by
    by_contra hc
    unfold csrRow at hrow
    obtain ⟨a, _, h1⟩ := Option.bind_eq_some_iff.1 hrow
    obtain ⟨b, h2, _⟩ := Option.bind_eq_some_iff.1 h1
    rw [List.getElem?_eq_none (by rw [hv.1]; omega)] at h2
    simp at h2
  obtain ⟨row0, h1, _, h2⟩ := hspec e hlt
  rw [hrow] at h1; cases h1
  obtain ⟨hne, hsh⟩ := (h2 e').1 hmem
  refine ⟨hne, ?_⟩
  have hlt' : e' < nelements (groups.map ElGroup.nelements) := by
    obtain ⟨_, row', _, _, h3, _⟩ := hsh; exact hasRow_lt h3
  obtain ⟨row', h3, _, h4⟩ := hspec e' hlt'
  exact ⟨row', h3, (h4 e).2 ⟨Ne.symm hne, shareVertex_symm hsh⟩⟩

theorem foldlM_isSome {σ ε : Type} (upd : σ → ε → Option σ) (P : σ → Prop)
    (evs : List ε) (hs : ∀ t, P t → ∀ ev ∈ evs, ∃ t', upd t ev = some t' ∧ P t')
    (t : σ) (ht : P t) : ∃ t', evs.foldlM upd t = some t' ∧ P t' := by
  induction evs generalizing t with
  | nil => exact ⟨t, by simp, ht⟩
  | cons a evs ih =>
    obtain ⟨t1, h1, h2⟩ := hs t ht a (by simp)
    obtain ⟨t2, h3, h4⟩ := ih (fun t ht ev hev => hs t ht ev (by simp [hev])) t1 h2
    exact ⟨t2, by rw [List.foldlM_cons, h1]; exact h3, h4⟩

theorem mapM_isSome_of {α β : Type} {f : α → Option β} {l : List α}
    (h : ∀ a ∈ l, ∃ b, f a = some b) : ∃ r, l.mapM f = some r := by
  induction l with
  | nil => exact ⟨[], by simp⟩
  | cons x l ih =>
    obtain ⟨b, hb⟩ := h x (by simp)
    obtain ⟨r, hr⟩ := ih fun a ha => h a (by simp [ha])
    exact ⟨b :: r, by simp [List.mapM_cons, hb, hr]⟩

/-- C04: the computation succeeds on every mesh with at least one group, valid vertex numbers and
at least one vertex per element. -/
theorem C04_nodal_adjacency_defined (iter : List Nat → List Nat) (nv : Nat)
    {groups : List (ElGroup N)} (hne : groups ≠ []) (hwf : ∀ g ∈ groups, g.WF)
    (hval : ∀ g ∈ groups, ∀ row ∈ g.vertexIndices, row ≠ [] ∧ ∀ v ∈ row, v < nv) :
    ∃ r, nodalAdjacency iter nv groups = some r := by
  have hrow : ∀ e row, (e, row) ∈ elementEntries groups → row ≠ [] ∧ ∀ v ∈ row, v < nv := by
    intro e row h
    obtain ⟨k, i, g, hg, hr, _⟩ := mem_elementEntries h
    exact hval g (List.mem_of_getElem? hg) row (List.mem_of_getElem? hr)
  obtain ⟨v2e, hv2e, _⟩ : ∃ t, vertexToElement nv (elementEntries groups) = some t ∧
      t.length = nv := by
    unfold vertexToElement
    rw [foldlM_events]
    refine foldlM_isSome _ (fun t : List (List Nat) => t.length = nv) _ ?_ _ (by simp)
    rintro t ht ⟨e, v⟩ hev
    obtain ⟨row, h1, h2⟩ := mem_events.1 hev
    have := (hrow e row h1).2 v h2
    exact ⟨_, by simp only [appendAt]; rw [if_pos (by omega)], by simpa using ht⟩
  obtain ⟨v1, v2⟩ := vertexToElement_spec hv2e
  obtain ⟨e2e, he2e, _⟩ : ∃ t, elementToElement v2e (nelements (groups.map ElGroup.nelements))
      (elementEntries groups) = some t ∧
      t.length = nelements (groups.map ElGroup.nelements) := by
    unfold elementToElement
    rw [foldlM_events]
    refine foldlM_isSome _
      (fun t : List (List Nat) => t.length = nelements (groups.map ElGroup.nelements)) _ ?_ _ (by simp)
    rintro t ht ⟨e, v⟩ hev
    obtain ⟨row, h1, h2⟩ := mem_events.1 hev
    have hv := (hrow e row h1).2 v h2
    have he := hasRow_lt (mem_elementEntries h1)
    refine ⟨t.modify e (v2e[v]'(by omega) ∪ ·), ?_, by simpa using ht⟩
    simp only [updateAt, List.getElem?_eq_getElem (show v < v2e.length by omega)]
    simp only [Option.bind_eq_bind, Option.bind_some]
    rw [if_pos (by omega)]
  obtain ⟨e1, e2⟩ := elementToElement_spec he2e
  obtain ⟨sets, hsets⟩ : ∃ r, removeSelf e2e = some r := by
    apply mapM_isSome_of
    rintro ⟨s, e⟩ hse
    rw [List.mem_zipIdx_iff_getElem?] at hse
    have hlt : e < nelements (groups.map ElGroup.nelements) := by
      rw [← e1]; exact (List.getElem?_eq_some_iff.1 hse).1
    obtain ⟨row, hr⟩ := exists_hasRow hwf hlt
    have hr' := elementEntries_mem hr
    obtain ⟨hn, hv⟩ := hrow e row hr'
    obtain ⟨v, hvr⟩ := List.exists_mem_of_ne_nil row hn
    have hvlt : v < v2e.length := by rw [v1]; exact hv v hvr
    have hl := List.getElem?_eq_getElem hvlt
    have : e ∈ s := ((e2 e s hse).2 e).2
      ⟨row, v, _, hr', hvr, hl, (v2 v _ hl e).2 ⟨row, hr', hvr⟩⟩
    exact ⟨_, if_pos this⟩
  unfold nodalAdjacency
  rw [if_neg (by simpa using hne)]
  simp only [Option.bind_eq_bind, hv2e, Option.bind_some, he2e, hsets]
  exact ⟨_, rfl⟩

/-- Non-vacuity: two triangles sharing an edge, a third one apart, in two groups. -/
example : nodalAdjacency (N := Unit) sortNat 8
    [⟨0, [[0,1],[2,0],[1,2]], [[0,1,2],[1,3,2]], [(), ()]⟩,
     ⟨0, [[0,1],[2,0],[1,2]], [[4,5,6],[2,3,7]], [(), ()]⟩]
    = some ([0, 2, 4, 4, 6], [1, 3, 0, 3, 0, 1]) := by decide

end Meshmode
