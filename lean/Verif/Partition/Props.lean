import Verif.Partition.Lemmas

/-!
# Partitioning: properties C09-C13
-/
namespace Meshmode

variable {N P A : Type}

/-! ## Specification -/

/-- Consistent groups and valid vertex numbers. (Specification or proof vocabulary, no code.) -/
structure MeshOK (m : MMesh N P A) : Prop where
  wf : ∀ g ∈ m.groups, g.WF
  verts : ∀ g ∈ m.groups, ∀ row ∈ g.vertexIndices, ∀ v ∈ row, v < m.vertices.length

/-- Facial adjacency that refers to existing faces only.
(Specification or proof vocabulary, no code.) -/
structure AdjOK (m : MMesh N P A) : Prop where
  length : m.fags.length = m.groups.length
  interior : ∀ (i : Nat) l a j rows aff, m.fags[i]? = some l → Fag.interior a j rows aff ∈ l →
    a = i ∧ ∀ r ∈ rows, IsFace m.groups ⟨i, r.el, r.face⟩ ∧ IsFace m.groups ⟨j, r.nel, r.nface⟩
  boundary : ∀ t f, InBoundary m.fags t f → IsFace m.groups f

/-- The part `pm`, made of the elements `sel`, has the original element `i` of group `g` as its
element `i'` of group `g`: some position `k` in the list `sel` holds the mesh-wide number of the
original and is the part-wide number of the copy. (Specification or proof vocabulary, no code.) -/
def SameElem (m pm : MMesh N P A) (sel : List Nat) (g i' i : Nat) : Prop :=
  ∃ k e, sel[k]? = some e ∧ IsGlobalNr pm.sizes g i' k ∧ IsGlobalNr m.sizes g i e

/-- Face `f'` of the part is the original's face `f`.
(Specification or proof vocabulary, no code.) -/
def SameFace (m pm : MMesh N P A) (sel : List Nat) (f' f : FaceId) : Prop :=
  f'.grp = f.grp ∧ f'.face = f.face ∧ SameElem m pm sel f.grp f'.el f.el

/-- `f` and `f'` are neighbours through the affine map `aff`.
(Specification or proof vocabulary, no code.) -/
def IsNeighborVia (fags : List (List (Fag A))) (aff : A) (f f' : FaceId) : Prop :=
  ∃ l rows, fags[f.grp]? = some l ∧ .interior f.grp f'.grp rows aff ∈ l ∧
    ⟨f.el, f.face, f'.el, f'.face⟩ ∈ rows

/-- Face `f` is recorded to face the face `nface` of element number `n` (part-wide) of part
`q`. (Specification or proof vocabulary, no code.) -/
def FacesPart (fags : List (List (Fag A))) (aff : A) (f : FaceId) (q n nface : Nat) : Prop :=
  ∃ l rows, fags[f.grp]? = some l ∧ .interPart f.grp (.partition q) q rows aff ∈ l ∧
    ⟨f.el, f.face, n, nface⟩ ∈ rows

/-! ## What a successful call computed -/

/-- The ingredients of a part. (Specification or proof vocabulary, no code.) -/
structure PartSpec (m : MMesh N P A) (parts : Parts) (pid : Nat) (pm : MMesh N P A)
    (pidx : Nat) (sel : List Nat) (required : List Nat) : Prop where
  range : ∀ p ∈ parts, ∀ e ∈ p.2, e < nelements m.sizes
  counts : ∀ e < nelements m.sizes, (parts.filter fun p => decide (e ∈ p.2)).length = 1
  part : parts[pidx]? = some (pid, sel)
  groups : filterMeshGroups m sel = some (pm.groups, required)
  vertices : selectRows m.vertices required = some pm.vertices
  fags : pm.fags = completeFacial (m.fags.zipIdx.map fun li =>
    selfToSelf m (globalElemToPart (nelements m.sizes) parts) pidx (selfGroupBase pm.sizes)
      li.2 li.1
    ++ selfToOther m (globalElemToPart (nelements m.sizes) parts) pidx (selfGroupBase pm.sizes)
      (connectedParts m parts (globalElemToPart (nelements m.sizes) parts) pidx) li.2 li.1
    ++ partBoundaryGroups m (globalElemToPart (nelements m.sizes) parts) pidx
      (selfGroupBase pm.sizes) li.2 li.1)

theorem getMeshPart_ok {m : MMesh N P A} {parts : Parts} {pid : Nat} {pm : MMesh N P A}
    (h : getMeshPart m parts pid = .ok pm) :
    ∃ pidx sel required, PartSpec m parts pid pm pidx sel required := by
  unfold getMeshPart at h
  simp only at h
  split at h
  · simp at h
  · rename_i h1
    split at h
    · simp at h
    · rename_i h2
      split at h
      · simp at h
      · rename_i h3
        split at h
        · simp at h
        · rename_i x pid' sel self hfind
          split at h
          · simp at h
          · rename_i x ng required hng
            split at h
            · simp at h
            · rename_i x verts hverts
              simp only [Except.ok.injEq] at h
              subst h
              have hm := List.mem_of_find?_eq_some hfind
              have hp := List.find?_some hfind
              simp only [beq_iff_eq] at hp
              subst hp
              rw [List.mem_zipIdx_iff_getElem?] at hm
              refine ⟨self, sel, required, ⟨?_, ?_, hm, hng, hverts, rfl⟩⟩
              · intro p hp e he
                by_contra hc
                exact h1 (List.any_eq_true.2 ⟨p, hp, List.any_eq_true.2
                  ⟨e, he, by simpa using hc⟩⟩)
              · intro e he
                have h4 : ¬ 1 < (parts.filter fun p => decide (e ∈ p.2)).length := by
                  intro hc
                  exact h2 (List.any_eq_true.2 ⟨e, List.mem_range.2 he, by simpa using hc⟩)
                have h5 : ¬ (parts.filter fun p => decide (e ∈ p.2)).length < 1 := by
                  intro hc
                  exact h3 (List.any_eq_true.2 ⟨e, List.mem_range.2 he, by simpa using hc⟩)
                omega

theorem filter_length_one {α : Type} {l : List α} {q : α → Bool}
    (h : (l.filter q).length ≤ 1) {i j : Nat} {a b : α} (hi : l[i]? = some a)
    (hj : l[j]? = some b) (ha : q a = true) (hb : q b = true) : i = j := by
  induction l generalizing i j with
  | nil => simp at hi
  | cons x l ih =>
    cases i with
    | zero =>
      cases j with
      | zero => rfl
      | succ j =>
        exfalso
        simp only [List.getElem?_cons_zero, Option.some.injEq] at hi
        subst hi
        simp only [List.getElem?_cons_succ] at hj
        rw [List.filter_cons_of_pos ha, List.length_cons] at h
        have : b ∈ l.filter q := List.mem_filter.2 ⟨List.mem_of_getElem? hj, hb⟩
        have := List.length_pos_of_mem this
        omega
    | succ i =>
      simp only [List.getElem?_cons_succ] at hi
      cases j with
      | zero =>
        exfalso
        simp only [List.getElem?_cons_zero, Option.some.injEq] at hj
        subst hj
        rw [List.filter_cons_of_pos hb, List.length_cons] at h
        have : a ∈ l.filter q := List.mem_filter.2 ⟨List.mem_of_getElem? hi, ha⟩
        have := List.length_pos_of_mem this
        omega
      | succ j =>
        simp only [List.getElem?_cons_succ] at hj
        have hle : (l.filter q).length ≤ 1 := by
          rw [List.filter_cons] at h
          split at h
          · simp only [List.length_cons] at h; omega
          · exact h
        rw [ih hle hi hj]

theorem filter_length_le_one {α : Type} {l : List α} {q : α → Bool}
    (h : ∀ (i j : Nat) a b, l[i]? = some a → l[j]? = some b → q a = true → q b = true → i = j) :
    (l.filter q).length ≤ 1 := by
  induction l with
  | nil => simp
  | cons x l ih =>
    have hl : (l.filter q).length ≤ 1 := by
      apply ih
      intro i j a b hi hj ha hb
      have := h (i+1) (j+1) a b (by simpa using hi) (by simpa using hj) ha hb
      omega
    rw [List.filter_cons]
    split
    · rename_i hx
      have hnil : l.filter q = [] := by
        rw [List.filter_eq_nil_iff]
        intro b hb hqb
        obtain ⟨j, hj⟩ := List.mem_iff_getElem?.1 hb
        have := h 0 (j+1) x b (by simp) (by simpa using hj) hx hqb
        omega
      simp [hnil]
    · exact hl

theorem PartSpec.valid {m : MMesh N P A} {parts : Parts} {pid : Nat} {pm : MMesh N P A}
    {pidx : Nat} {sel required : List Nat} (h : PartSpec m parts pid pm pidx sel required)
    (hids : (parts.map Prod.fst).Nodup) (hsorted : ∀ p ∈ parts, p.2.Pairwise (· < ·)) :
    ValidParts (nelements m.sizes) parts := by
  refine ⟨hids, hsorted, h.range, ?_, ?_⟩
  · intro e he
    have := h.counts e he
    have hpos : 0 < (parts.filter fun p => decide (e ∈ p.2)).length := by omega
    obtain ⟨p, hp⟩ := List.exists_mem_of_length_pos hpos
    simp only [List.mem_filter, decide_eq_true_eq] at hp
    exact ⟨p, hp.1, hp.2⟩
  · intro i j p q e hi hj hp hq
    have hlt := h.range p (List.mem_of_getElem? hi) e hp
    exact filter_length_one (by rw [h.counts e hlt]) hi hj (by simpa using hp) (by simpa using hq)

theorem PartSpec.selSorted {m : MMesh N P A} {parts : Parts} {pid : Nat} {pm : MMesh N P A}
    {pidx : Nat} {sel required : List Nat} (h : PartSpec m parts pid pm pidx sel required)
    (hv : ValidParts (nelements m.sizes) parts) :
    sel.Pairwise (· < ·) ∧ ∀ e ∈ sel, e < m.sizes.sum :=
  ⟨hv.sorted _ (List.mem_of_getElem? h.part), hv.range _ (List.mem_of_getElem? h.part)⟩

theorem PartSpec.filterSpec {m : MMesh N P A} {parts : Parts} {pid : Nat} {pm : MMesh N P A}
    {pidx : Nat} {sel required : List Nat} (h : PartSpec m parts pid pm pidx sel required)
    (hv : ValidParts (nelements m.sizes) parts) : FilterSpec m sel pm.groups required :=
  filterMeshGroups_spec (h.selSorted hv).1 (h.selSorted hv).2 h.groups

theorem parts_index_unique {parts : Parts} (hids : (parts.map Prod.fst).Nodup) {i j : Nat}
    {pid : Nat} {a b : List Nat} (hi : parts[i]? = some (pid, a)) (hj : parts[j]? = some (pid, b)) :
    i = j ∧ a = b := by
  have h1 : (parts.map Prod.fst)[i]? = some pid := by simp [hi]
  have h2 : (parts.map Prod.fst)[j]? = some pid := by simp [hj]
  have : i = j := (List.getElem?_inj (List.getElem?_eq_some_iff.1 h1).1 hids).1 (h1.trans h2.symm)
  subst this
  rw [hi] at hj
  exact ⟨rfl, by simpa using hj⟩

/-! ## C09 -/

/-- C09: with distinct part identifiers and sorted element lists, a part can be made exactly when
every element of the mesh is in exactly one of the lists and the lists contain nothing else. -/
theorem C09_accepts_exactly_partitions {m : MMesh N P A} (hm : MeshOK m) {parts : Parts}
    (hids : (parts.map Prod.fst).Nodup) (hsorted : ∀ p ∈ parts, p.2.Pairwise (· < ·))
    {pid : Nat} (hpid : pid ∈ parts.map Prod.fst) :
    (∃ pm, getMeshPart m parts pid = .ok pm) ↔ ValidParts (nelements m.sizes) parts := by
  constructor
  · rintro ⟨pm, h⟩
    obtain ⟨pidx, sel, required, hs⟩ := getMeshPart_ok h
    exact hs.valid hids hsorted
  · intro hv
    unfold getMeshPart
    simp only
    rw [if_neg, if_neg, if_neg]
    · obtain ⟨⟨pid', sel⟩, hp, rfl⟩ := List.mem_map.1 hpid
      obtain ⟨i, hi⟩ := List.mem_iff_getElem?.1 hp
      cases hfind : parts.zipIdx.find? fun pi => pi.1.1 == pid' with
      | none =>
        rw [List.find?_eq_none] at hfind
        exact absurd (hfind ((pid', sel), i) (List.mem_zipIdx_iff_getElem?.2 hi)) (by simp)
      | some x =>
        obtain ⟨⟨pid'', sel'⟩, self⟩ := x
        have hmem := List.mem_of_find?_eq_some hfind
        rw [List.mem_zipIdx_iff_getElem?] at hmem
        simp only
        have hs := hv.sorted _ (List.mem_of_getElem? hmem)
        have hr := hv.range _ (List.mem_of_getElem? hmem)
        obtain ⟨⟨ng, req⟩, hng⟩ := filterMeshGroups_some hm.wf hs hr
        rw [hng]
        simp only
        have hspec := filterMeshGroups_spec hs hr hng
        obtain ⟨vs, hvs⟩ := selectRows_some (l := m.vertices) (idx := req) (by
          intro v hv'
          obtain ⟨g, j, i, grp, row, h1, h2, h3, h4⟩ := hspec.required_used v hv'
          exact hm.verts grp (List.mem_of_getElem? h1) row (List.mem_of_getElem? h3) v h4)
        rw [hvs]
        exact ⟨_, rfl⟩
    · simp only [List.any_eq_true, List.mem_range, decide_eq_true_eq, not_exists, not_and, not_lt]
      intro e he
      obtain ⟨p, hp, hep⟩ := hv.covered e he
      exact List.length_pos_of_mem (List.mem_filter.2 ⟨hp, by simpa using hep⟩)
    · simp only [List.any_eq_true, List.mem_range, decide_eq_true_eq, not_exists, not_and, not_lt]
      intro e _
      apply filter_length_le_one
      intro i j a b hi hj ha hb
      exact hv.disjoint i j a b e hi hj (by simpa using ha) (by simpa using hb)
    · simp only [List.any_eq_true, decide_eq_true_eq, not_exists, not_and, not_le]
      intro p hp e he
      exact hv.range p hp e he

/-- C09: each part has exactly its listed elements, in order, in the group structure of the mesh:
part-wide element `k` is the mesh's element `sel[k]`, in the same group, with the same nodes. -/
theorem C09_part_elements {m : MMesh N P A} {parts : Parts}
    (hids : (parts.map Prod.fst).Nodup) (hsorted : ∀ p ∈ parts, p.2.Pairwise (· < ·))
    {pid : Nat} {pm : MMesh N P A} (h : getMeshPart m parts pid = .ok pm) :
    ∃ sel, (pid, sel) ∈ parts ∧ nelements pm.sizes = sel.length ∧
      pm.groups.length = m.groups.length ∧
      (∀ (g : Nat) grp, m.groups[g]? = some grp → ∃ grp', pm.groups[g]? = some grp' ∧
        grp'.kind = grp.kind ∧ grp'.fvi = grp.fvi) ∧
      ∀ k e, sel[k]? = some e → ∃ g i i' grp grp', IsGlobalNr m.sizes g i e ∧
        IsGlobalNr pm.sizes g i' k ∧ m.groups[g]? = some grp ∧ pm.groups[g]? = some grp' ∧
        ∃ x, grp.nodes[i]? = some x ∧ grp'.nodes[i']? = some x := by
  obtain ⟨pidx, sel, required, hs⟩ := getMeshPart_ok h
  have hv := hs.valid hids hsorted
  obtain ⟨hso, hra⟩ := hs.selSorted hv
  have hf := hs.filterSpec hv
  have hslen : m.sizes.length = m.groups.length := by simp [MMesh.sizes]
  refine ⟨sel, List.mem_of_getElem? hs.part, ?_, hf.length, ?_, ?_⟩
  · unfold nelements
    have := sum_take_telescope (startOf m.sizes sel) (fun i => startOf_mono _ _ (by omega))
      (startOf_zero _ _) hf.sizes (g := m.sizes.length)
      (by simp [hf.length, MMesh.sizes])
    have hl : (pm.groups.map ElGroup.nelements).length = m.sizes.length := by
      simp [hf.length, MMesh.sizes]
    rw [← hl, List.take_length, hl, startOf_length hra] at this
    exact this
  · intro g grp hg
    obtain ⟨grp', h1, h2, h3, _⟩ := hf.group g grp hg
    exact ⟨grp', h1, h2, h3⟩
  · intro k e hk
    obtain ⟨g, i, hgi⟩ := (C01_numbering_bijective m.sizes e).1.1
      (hra e (List.mem_of_getElem? hk))
    obtain ⟨n, hn, hin, he⟩ := hgi
    rw [sizes_getElem?, Option.map_eq_some_iff] at hn
    obtain ⟨grp, hg, rfl⟩ := hn
    have hgi : IsGlobalNr m.sizes g i e := ⟨_, by rw [sizes_getElem?, hg]; rfl, hin, he⟩
    have hlt : g < m.sizes.length := by rw [hslen]; exact (List.getElem?_eq_some_iff.1 hg).1
    have hblock := (startOf_block (sizes := m.sizes) (g := g) hso hk).2 (by
      rw [take_succ_sum (n := grp.nelements) (by rw [sizes_getElem?, hg]; rfl)]; omega)
    have hgl : IsGlobalNr pm.sizes g (k - startOf m.sizes sel g) k :=
      (isGlobalNr_part hso hf hk _).2 ⟨⟨i, hgi⟩, by omega⟩
    obtain ⟨grp', h1, _, _, _, h2⟩ := hf.group g grp hg
    obtain ⟨f1, f2⟩ := filteredElements_spec hso hra hlt
    have hj : k - startOf m.sizes sel g < (filteredElements m.sizes sel g).length := by omega
    have hji := List.getElem?_eq_getElem hj
    have h3 := (f2 _ _ hji).1
    rw [show startOf m.sizes sel g + (k - startOf m.sizes sel g) = k by omega, hk] at h3
    simp only [Option.some.injEq] at h3
    have h4 : (filteredElements m.sizes sel g)[k - startOf m.sizes sel g] = i := by omega
    rw [h4] at hji
    obtain ⟨⟨x, hx1, hx2⟩, _⟩ := h2 _ _ hji
    exact ⟨g, i, _, grp, grp', hgi, hgl, hg, h1, x, hx2, hx1⟩

/-- C09: a successful `partition_mesh` returns one part per requested identifier, each made as
above. -/
theorem C09_partition_mesh {m : MMesh N P A} {parts : Parts} {rp : Option (List Nat)}
    {r : List (Nat × MMesh N P A)} (h : partitionMesh m parts rp = .ok r) :
    r.map Prod.fst = rp.getD (parts.map Prod.fst) ∧
    ∀ p ∈ r, getMeshPart m parts p.1 = .ok p.2 := by
  unfold partitionMesh at h
  generalize rp.getD (parts.map Prod.fst) = ids at h
  induction ids generalizing r with
  | nil =>
    simp only [List.mapM_nil, pure, Except.pure, Except.ok.injEq] at h
    subst h; simp
  | cons i ids ih =>
    rw [List.mapM_cons] at h
    simp only [bind, Except.bind, pure, Except.pure] at h
    cases h1 : getMeshPart m parts i with
    | error e => simp [h1] at h
    | ok pm =>
      simp only [h1] at h
      split at h
      · simp at h
      · rename_i r' hr'
        simp only [Except.ok.injEq] at h
        subst h
        obtain ⟨h2, h3⟩ := ih hr'
        refine ⟨by simp [h2], ?_⟩
        intro p hp
        rcases List.mem_cons.1 hp with rfl | hp
        · exact h1
        · exact h3 p hp

/-! ## C10 -/

/-- C10: the vertices of each element of a part are the same points, in the same order, as in the
original mesh, and every vertex of the part is used by one of its elements. -/
theorem C10_part_keeps_geometry {m : MMesh N P A} {parts : Parts}
    (hids : (parts.map Prod.fst).Nodup) (hsorted : ∀ p ∈ parts, p.2.Pairwise (· < ·))
    {pid : Nat} {pm : MMesh N P A} (h : getMeshPart m parts pid = .ok pm)
    {sel : List Nat} (hsel : (pid, sel) ∈ parts) :
    (∀ g i' i, SameElem m pm sel g i' i → ∃ grp grp' row row', m.groups[g]? = some grp ∧
      pm.groups[g]? = some grp' ∧ grp.vertexIndices[i]? = some row ∧
      grp'.vertexIndices[i']? = some row' ∧
      row'.map (pm.vertices[·]?) = row.map (m.vertices[·]?) ∧
      ∀ v ∈ row', v < pm.vertices.length) ∧
    (∀ v < pm.vertices.length, ∃ grp' ∈ pm.groups, ∃ row' ∈ grp'.vertexIndices, v ∈ row') := by
  obtain ⟨pidx, sel', required, hs⟩ := getMeshPart_ok h
  obtain ⟨i0, hi0⟩ := List.mem_iff_getElem?.1 hsel
  obtain ⟨rfl, rfl⟩ := parts_index_unique hids hi0 hs.part
  have hv := hs.valid hids hsorted
  obtain ⟨hso, hra⟩ := hs.selSorted hv
  have hf := hs.filterSpec hv
  have hslen : m.sizes.length = m.groups.length := by simp [MMesh.sizes]
  obtain ⟨v1, v2⟩ := selectRows_getElem? hs.vertices
  have hpos : ∀ v ∈ required, npSearchsorted required v < pm.vertices.length ∧
      pm.vertices[npSearchsorted required v]? = m.vertices[v]? := by
    intro v hvr
    have h1 := npSearchsorted_of_mem hf.required_sorted hvr
    obtain ⟨x, hx1, hx2⟩ := v2 _ _ h1
    exact ⟨(List.getElem?_eq_some_iff.1 hx1).1, hx1.trans hx2.symm⟩
  refine ⟨?_, ?_⟩
  · rintro g i' i ⟨k, e, hk, hgl, hgi⟩
    obtain ⟨n, hn, hin, he⟩ := hgi
    rw [sizes_getElem?, Option.map_eq_some_iff] at hn
    obtain ⟨grp, hg, rfl⟩ := hn
    have hlt : g < m.sizes.length := by rw [hslen]; exact (List.getElem?_eq_some_iff.1 hg).1
    have hk' := ((isGlobalNr_part hso hf hk i').1 hgl).2
    have hblock := (startOf_block (sizes := m.sizes) (g := g) hso hk).2 (by
      rw [take_succ_sum (n := grp.nelements) (by rw [sizes_getElem?, hg]; rfl)]; omega)
    obtain ⟨grp', h1, _, _, _, h2⟩ := hf.group g grp hg
    obtain ⟨f1, f2⟩ := filteredElements_spec hso hra hlt
    have hj : i' < (filteredElements m.sizes sel g).length := by omega
    have hji := List.getElem?_eq_getElem hj
    have h3 := (f2 _ _ hji).1
    rw [← hk', hk] at h3
    simp only [Option.some.injEq] at h3
    have h4 : (filteredElements m.sizes sel g)[i'] = i := by omega
    rw [h4] at hji
    obtain ⟨_, row, hrow, hreq, hrow'⟩ := h2 _ _ hji
    refine ⟨grp, grp', row, _, hg, h1, hrow, hrow', ?_, ?_⟩
    · rw [List.map_map]
      apply List.map_congr_left
      intro v hvr
      exact (hpos v (hreq v hvr)).2
    · intro v hvr
      obtain ⟨w, hw, rfl⟩ := List.mem_map.1 hvr
      exact (hpos w (hreq w hw)).1
  · intro v hvlt
    have hvl : v < required.length := by omega
    obtain ⟨g, j, i, grp, row, hg, hji, hrow, hmem⟩ :=
      hf.required_used required[v] (List.getElem_mem _)
    obtain ⟨grp', h1, _, _, _, h2⟩ := hf.group g grp hg
    obtain ⟨_, row2, hrow2, _, hrow'⟩ := h2 _ _ hji
    rw [hrow] at hrow2; cases hrow2
    refine ⟨grp', List.mem_of_getElem? h1, _, List.mem_of_getElem? hrow', ?_⟩
    rw [List.mem_map]
    exact ⟨required[v], hmem, npSearchsorted_getElem hf.required_sorted v hvl⟩

/-! ## Element correspondence -/

/-- The table entry of an element and the element's place in part `pidx`. -/
theorem partOf_sameElem {m : MMesh N P A} {parts : Parts} {pid : Nat} {pm : MMesh N P A}
    {pidx : Nat} {sel required : List Nat} (hs : PartSpec m parts pid pm pidx sel required)
    (hv : ValidParts (nelements m.sizes) parts) {g i : Nat} {grp : ElGroup N}
    (hg : m.groups[g]? = some grp) (hi : i < grp.nelements) {i' : Nat} :
    SameElem m pm sel g i' i ↔
      ∃ k, partOf (globalElemToPart (nelements m.sizes) parts) (i + m.baseOf g) = some (pidx, k) ∧
        k - selfGroupBase pm.sizes g = i' := by
  obtain ⟨hso, hra⟩ := hs.selSorted hv
  have hf := hs.filterSpec hv
  have hlt : g < m.groups.length := (List.getElem?_eq_some_iff.1 hg).1
  have hslen : m.sizes.length = m.groups.length := by simp [MMesh.sizes]
  have hbase : m.baseOf g = (m.sizes.take g).sum := by
    unfold MMesh.baseOf
    rw [baseElementNrs_getElem? _ _ (by omega)]; rfl
  have hself : selfGroupBase pm.sizes g = startOf m.sizes sel g := selfGroupBase_eq hf hlt
  have hsz : m.sizes[g]? = some grp.nelements := by rw [sizes_getElem?, hg]; rfl
  rw [hself]
  constructor
  · rintro ⟨k, e, hk, hgl, n, hn, _, he⟩
    have hk' := ((isGlobalNr_part hso hf hk i').1 hgl).2
    refine ⟨k, (partOf_iff hv).2 ⟨_, hs.part, ?_⟩, by omega⟩
    rw [hk, hbase]; congr 1; omega
  · rintro ⟨k, hk, rfl⟩
    obtain ⟨p, hp, hpk⟩ := (partOf_iff hv).1 hk
    rw [hs.part] at hp; cases hp
    simp only at hpk
    have hgi : IsGlobalNr m.sizes g i (i + m.baseOf g) := ⟨_, hsz, hi, by omega⟩
    have hblock := (startOf_block (sizes := m.sizes) (g := g) hso hpk).2 (by
      rw [take_succ_sum hsz]; omega)
    exact ⟨k, _, hpk, (isGlobalNr_part hso hf hpk _).2 ⟨⟨i, hgi⟩, by omega⟩, hgi⟩

theorem isFace_iff {groups : List (ElGroup N)} {f : FaceId} {g : ElGroup N}
    (hg : groups[f.grp]? = some g) : IsFace groups f ↔ f.face < g.nfaces ∧ f.el < g.nelements := by
  unfold IsFace
  constructor
  · rintro ⟨g', h1, h2⟩; rw [hg] at h1; cases h1; exact h2
  · intro h; exact ⟨g, hg, h⟩

theorem part_fags_getElem? {m : MMesh N P A} {parts : Parts} {pid : Nat} {pm : MMesh N P A}
    {pidx : Nat} {sel required : List Nat} (hs : PartSpec m parts pid pm pidx sel required)
    (i : Nat) : pm.fags[i]? = m.fags[i]?.map fun l => completeGroup i
      (selfToSelf m (globalElemToPart (nelements m.sizes) parts) pidx (selfGroupBase pm.sizes) i l
      ++ selfToOther m (globalElemToPart (nelements m.sizes) parts) pidx (selfGroupBase pm.sizes)
        (connectedParts m parts (globalElemToPart (nelements m.sizes) parts) pidx) i l
      ++ partBoundaryGroups m (globalElemToPart (nelements m.sizes) parts) pidx
        (selfGroupBase pm.sizes) i l) := by
  rw [hs.fags, completeFacial_getElem?, getElem?_zipIdx_map, Option.map_map]
  rfl

theorem selfRow_eq_some {m : MMesh N P A} {table : List (Option (Nat × Nat))} {self : Nat}
    {sb : Nat → Nat} {i j : Nat} {r0 r : AdjRow} :
    selfRow m table self sb i j r0 = some r ↔ ∃ k k',
      partOf table (r0.el + m.baseOf i) = some (self, k) ∧
      partOf table (r0.nel + m.baseOf j) = some (self, k') ∧
      r = ⟨k - sb i, r0.face, k' - sb j, r0.nface⟩ := by
  unfold selfRow
  constructor
  · intro h
    obtain ⟨⟨p, k⟩, hp, g1⟩ := Option.bind_eq_some_iff.1 h
    obtain ⟨⟨q, k'⟩, hq, g2⟩ := Option.bind_eq_some_iff.1 g1
    split at g2
    · rename_i hpq
      obtain ⟨h1, h2⟩ := hpq
      simp only at h1 h2
      subst h1; subst h2
      exact ⟨k, k', hp, hq, (Option.some.inj g2).symm⟩
    · simp at g2
  · rintro ⟨k, k', hp, hq, rfl⟩
    simp [hp, hq]

theorem otherRow_eq_some {m : MMesh N P A} {table : List (Option (Nat × Nat))} {self : Nat}
    {sb : Nat → Nat} {i j qi : Nat} {r0 r : AdjRow} :
    otherRow m table self sb i j qi r0 = some r ↔ ∃ k k',
      partOf table (r0.el + m.baseOf i) = some (self, k) ∧
      partOf table (r0.nel + m.baseOf j) = some (qi, k') ∧
      r = ⟨k - sb i, r0.face, k', r0.nface⟩ := by
  unfold otherRow
  constructor
  · intro h
    obtain ⟨⟨p, k⟩, hp, g1⟩ := Option.bind_eq_some_iff.1 h
    obtain ⟨⟨q, k'⟩, hq, g2⟩ := Option.bind_eq_some_iff.1 g1
    split at g2
    · rename_i hpq
      obtain ⟨h1, h2⟩ := hpq
      simp only at h1 h2
      subst h1; subst h2
      exact ⟨k, k', hp, hq, (Option.some.inj g2).symm⟩
    · simp at g2
  · rintro ⟨k, k', hp, hq, rfl⟩
    simp [hp, hq]

theorem bdryRow_eq_some {m : MMesh N P A} {table : List (Option (Nat × Nat))} {self : Nat}
    {sb : Nat → Nat} {i : Nat} {f0 f : ElFace} :
    bdryRow m table self sb i f0 = some f ↔ ∃ k,
      partOf table (f0.el + m.baseOf i) = some (self, k) ∧ f = ⟨k - sb i, f0.face⟩ := by
  unfold bdryRow
  constructor
  · intro h
    obtain ⟨⟨p, k⟩, hp, g2⟩ := Option.bind_eq_some_iff.1 h
    split at g2
    · rename_i h1
      simp only at h1
      subst h1
      exact ⟨k, hp, (Option.some.inj g2).symm⟩
    · simp at g2
  · rintro ⟨k, hp, rfl⟩
    simp [hp]

theorem mem_selfToSelf {m : MMesh N P A} {table : List (Option (Nat × Nat))} {self : Nat}
    {sb : Nat → Nat} {i : Nat} {l : List (Fag A)} {a j : Nat} {rows : List AdjRow} {aff : A}
    {r : AdjRow} :
    (Fag.interior a j rows aff ∈ selfToSelf m table self sb i l ∧ r ∈ rows) →
      a = i ∧ ∃ a' rows0 r0 k k', .interior a' j rows0 aff ∈ l ∧ r0 ∈ rows0 ∧
        partOf table (r0.el + m.baseOf i) = some (self, k) ∧
        partOf table (r0.nel + m.baseOf j) = some (self, k') ∧
        r = ⟨k - sb i, r0.face, k' - sb j, r0.nface⟩ := by
  rintro ⟨h, hr⟩
  simp only [selfToSelf, List.mem_filterMap] at h
  obtain ⟨fg, hfg, h⟩ := h
  cases fg with
  | interior a' j' rows0 aff' =>
    simp only at h
    split at h
    · simp at h
    · simp only [Option.some.injEq, Fag.interior.injEq] at h
      obtain ⟨rfl, rfl, rfl, rfl⟩ := h
      rw [List.mem_filterMap] at hr
      obtain ⟨r0, hr0, hr1⟩ := hr
      obtain ⟨k, k', h1, h2, h3⟩ := selfRow_eq_some.1 hr1
      exact ⟨rfl, a', rows0, r0, k, k', hfg, hr0, h1, h2, h3⟩
  | boundary => simp at h
  | interPart => simp at h

theorem selfToSelf_mem {m : MMesh N P A} {table : List (Option (Nat × Nat))} {self : Nat}
    {sb : Nat → Nat} {i : Nat} {l : List (Fag A)} {a' j : Nat} {rows0 : List AdjRow} {aff : A}
    {r0 : AdjRow} {k k' : Nat} (hfg : .interior a' j rows0 aff ∈ l) (hr0 : r0 ∈ rows0)
    (hp : partOf table (r0.el + m.baseOf i) = some (self, k))
    (hq : partOf table (r0.nel + m.baseOf j) = some (self, k')) :
    ∃ rows, Fag.interior i j rows aff ∈ selfToSelf m table self sb i l ∧
      ⟨k - sb i, r0.face, k' - sb j, r0.nface⟩ ∈ rows := by
  have hrow : (⟨k - sb i, r0.face, k' - sb j, r0.nface⟩ : AdjRow) ∈
      rows0.filterMap (selfRow m table self sb i j) := by
    rw [List.mem_filterMap]
    exact ⟨r0, hr0, selfRow_eq_some.2 ⟨k, k', hp, hq, rfl⟩⟩
  refine ⟨_, ?_, hrow⟩
  simp only [selfToSelf, List.mem_filterMap]
  refine ⟨_, hfg, ?_⟩
  simp only
  rw [if_neg]
  rw [List.isEmpty_iff]
  exact List.ne_nil_of_mem hrow

theorem not_interior_selfToOther {m : MMesh N P A} {table : List (Option (Nat × Nat))} {self : Nat}
    {sb : Nat → Nat} {c : List (Nat × Nat)} {i : Nat} {l : List (Fag A)} {a j : Nat}
    {rows : List AdjRow} {aff : A} :
    Fag.interior a j rows aff ∉ selfToOther m table self sb c i l := by
  intro h
  simp only [selfToOther, List.mem_flatMap] at h
  obtain ⟨fg, _, h⟩ := h
  cases fg with
  | interior =>
    simp only [List.mem_filterMap] at h
    obtain ⟨q, _, h⟩ := h
    split at h <;> simp at h
  | boundary => simp at h
  | interPart => simp at h

/-! ## C11 -/

/-- C11: two faces of a part are neighbours (through `aff`) exactly when they are copies of two
faces that are neighbours (through `aff`) in the original mesh. -/
theorem C11_part_internal_connectivity {m : MMesh N P A} (ha : AdjOK m) {parts : Parts}
    (hids : (parts.map Prod.fst).Nodup) (hsorted : ∀ p ∈ parts, p.2.Pairwise (· < ·))
    {pid : Nat} {pm : MMesh N P A} (h : getMeshPart m parts pid = .ok pm)
    {sel : List Nat} (hsel : (pid, sel) ∈ parts) (aff : A) (f1' f2' : FaceId) :
    IsNeighborVia pm.fags aff f1' f2' ↔
      ∃ f1 f2, SameFace m pm sel f1' f1 ∧ SameFace m pm sel f2' f2 ∧
        IsNeighborVia m.fags aff f1 f2 := by
  obtain ⟨pidx, sel', required, hs⟩ := getMeshPart_ok h
  obtain ⟨i0, hi0⟩ := List.mem_iff_getElem?.1 hsel
  obtain ⟨rfl, rfl⟩ := parts_index_unique hids hi0 hs.part
  have hv := hs.valid hids hsorted
  constructor
  · rintro ⟨l', rows, hl', hfg, hrow⟩
    rw [part_fags_getElem? hs] at hl'
    obtain ⟨l, hl, rfl⟩ := Option.map_eq_some_iff.1 hl'
    rw [mem_completeGroup_interior, List.mem_append, List.mem_append] at hfg
    have hfg' : Fag.interior f1'.grp f2'.grp rows aff ∈ selfToSelf m
        (globalElemToPart (nelements m.sizes) parts) i0 (selfGroupBase pm.sizes) f1'.grp l := by
      rcases hfg with (hfg | hfg) | hfg
      · exact hfg
      · exact absurd hfg not_interior_selfToOther
      · simp [partBoundaryGroups] at hfg
    obtain ⟨_, a', rows0, r0, k, k', h1, h2, h3, h4, h5⟩ := mem_selfToSelf ⟨hfg', hrow⟩
    obtain ⟨rfl, hfaces⟩ := ha.interior _ _ _ _ _ _ hl h1
    obtain ⟨⟨g1, hg1, hf1, he1⟩, ⟨g2, hg2, hf2, he2⟩⟩ := hfaces r0 h2
    simp only [AdjRow.mk.injEq] at h5
    obtain ⟨h5, h6, h7, h8⟩ := h5
    refine ⟨⟨f1'.grp, r0.el, r0.face⟩, ⟨f2'.grp, r0.nel, r0.nface⟩, ⟨rfl, h6, ?_⟩,
      ⟨rfl, h8, ?_⟩, ⟨l, rows0, hl, h1, h2⟩⟩
    · exact (partOf_sameElem hs hv hg1 he1).2 ⟨k, h3, h5.symm⟩
    · exact (partOf_sameElem hs hv hg2 he2).2 ⟨k', h4, h7.symm⟩
  · rintro ⟨f1, f2, ⟨a1, a2, a3⟩, ⟨b1, b2, b3⟩, l, rows0, hl, hfg, hrow⟩
    obtain ⟨_, hfaces⟩ := ha.interior _ _ _ _ _ _ hl hfg
    obtain ⟨⟨g1, hg1, hf1, he1⟩, ⟨g2, hg2, hf2, he2⟩⟩ := hfaces _ hrow
    obtain ⟨k, hk, hk'⟩ := (partOf_sameElem hs hv hg1 he1).1 a3
    obtain ⟨q, hq, hq'⟩ := (partOf_sameElem hs hv hg2 he2).1 b3
    obtain ⟨rows, h1, h2⟩ := selfToSelf_mem (sb := selfGroupBase pm.sizes) hfg hrow hk hq
    refine ⟨_, rows, by rw [part_fags_getElem? hs, a1, hl]; rfl, ?_, ?_⟩
    · rw [mem_completeGroup_interior, List.mem_append, List.mem_append]
      rw [a1, b1]
      exact Or.inl (Or.inl h1)
    · simp only [hk', hq'] at h2
      rw [a2, b2]; exact h2

/-! ## C12 -/

theorem mem_connectedParts {m : MMesh N P A} {parts : Parts}
    {table : List (Option (Nat × Nat))} {self q qi : Nat} :
    (q, qi) ∈ connectedParts m parts table self ↔
      (∃ sel, parts[qi]? = some (q, sel)) ∧ qi ≠ self ∧
      ∃ i l a j rows aff r k k', m.fags[i]? = some l ∧ .interior a j rows aff ∈ l ∧ r ∈ rows ∧
        partOf table (r.el + m.baseOf i) = some (self, k) ∧
        partOf table (r.nel + m.baseOf j) = some (qi, k') := by
  simp only [connectedParts, List.mem_filter, List.mem_map, decide_eq_true_eq, List.mem_flatMap]
  constructor
  · rintro ⟨⟨⟨⟨q', sel⟩, qi'⟩, h1, h2⟩, ⟨l, i⟩, hl, fg, hfg, h3⟩
    simp only [Prod.mk.injEq] at h2
    obtain ⟨rfl, rfl⟩ := h2
    rw [List.mem_zipIdx_iff_getElem?] at h1 hl
    refine ⟨⟨sel, h1⟩, ?_⟩
    cases fg with
    | interior a j rows aff =>
      simp only [List.mem_filterMap] at h3
      obtain ⟨r, hr, h3⟩ := h3
      unfold connectedRow at h3
      obtain ⟨⟨p, k⟩, hp, g1⟩ := Option.bind_eq_some_iff.1 h3
      obtain ⟨⟨q, k'⟩, hq, g2⟩ := Option.bind_eq_some_iff.1 g1
      split at g2
      · rename_i hpq
        simp only [Option.some.injEq] at g2
        simp only at hpq
        obtain ⟨e1, e2⟩ := hpq
        subst g2; subst e1
        exact ⟨e2, i, l, a, j, rows, aff, r, k, k', hl, hfg, hr, hp, hq⟩
      · simp at g2
    | boundary => simp at h3
    | interPart => simp at h3
  · rintro ⟨⟨sel, h1⟩, hne, i, l, a, j, rows, aff, r, k, k', hl, hfg, hr, hp, hq⟩
    refine ⟨⟨((q, sel), qi), List.mem_zipIdx_iff_getElem?.2 h1, rfl⟩, (l, i),
      List.mem_zipIdx_iff_getElem?.2 hl, _, hfg, ?_⟩
    simp only [List.mem_filterMap]
    exact ⟨r, hr, by simp [connectedRow, hp, hq, hne]⟩

theorem mem_selfToOther {m : MMesh N P A} {table : List (Option (Nat × Nat))} {self : Nat}
    {sb : Nat → Nat} {c : List (Nat × Nat)} {i : Nat} {l : List (Fag A)} {fg : Fag A} :
    fg ∈ selfToOther m table self sb c i l ↔ ∃ a j rows0 aff q,
      .interior a j rows0 aff ∈ l ∧ q ∈ c ∧
      fg = .interPart i (.partition q.1) q.1
        (rows0.filterMap (otherRow m table self sb i j q.2)) aff ∧
      rows0.filterMap (otherRow m table self sb i j q.2) ≠ [] := by
  simp only [selfToOther, List.mem_flatMap]
  constructor
  · rintro ⟨fg0, hfg, h⟩
    cases fg0 with
    | interior a j rows0 aff =>
      simp only [List.mem_filterMap] at h
      obtain ⟨q, hq, h⟩ := h
      split at h
      · simp at h
      · rename_i hne
        simp only [Option.some.injEq] at h
        exact ⟨a, j, rows0, aff, q, hfg, hq, h.symm, by simpa using hne⟩
    | boundary => simp at h
    | interPart => simp at h
  · rintro ⟨a, j, rows0, aff, q, hfg, hq, rfl, hne⟩
    refine ⟨_, hfg, ?_⟩
    simp only [List.mem_filterMap]
    exact ⟨q, hq, by rw [if_neg (by simpa using hne)]⟩

theorem not_interPart_selfToSelf {m : MMesh N P A} {table : List (Option (Nat × Nat))} {self : Nat}
    {sb : Nat → Nat} {i : Nat} {l : List (Fag A)} {fg : Fag A}
    (h : fg ∈ selfToSelf m table self sb i l) : fg.bdry? = none := by
  simp only [selfToSelf, List.mem_filterMap] at h
  obtain ⟨fg0, _, h⟩ := h
  cases fg0 with
  | interior =>
    simp only at h
    split at h
    · simp at h
    · simp only [Option.some.injEq] at h
      subst h; rfl
  | boundary => simp at h
  | interPart => simp at h

/-- C12, exactness: part `pid` records face `f1'` to face the face `nf` of element number `n` of
part `q` exactly when `q` is another part, `f1'` is a copy of an original face `f1` whose neighbour
`f2` is the face `nf` of the `n`-th element in the list of `q`. -/
theorem C12_inter_part_exact {m : MMesh N P A} (ha : AdjOK m) {parts : Parts}
    (hids : (parts.map Prod.fst).Nodup) (hsorted : ∀ p ∈ parts, p.2.Pairwise (· < ·))
    {pid : Nat} {pm : MMesh N P A} (h : getMeshPart m parts pid = .ok pm)
    {sel : List Nat} (hsel : (pid, sel) ∈ parts) (aff : A) (f1' : FaceId) (q n nf : Nat) :
    FacesPart pm.fags aff f1' q n nf ↔
      q ≠ pid ∧ ∃ f1 f2 selq e2, SameFace m pm sel f1' f1 ∧ (q, selq) ∈ parts ∧
        selq[n]? = some e2 ∧ IsGlobalNr m.sizes f2.grp f2.el e2 ∧ f2.face = nf ∧
        IsNeighborVia m.fags aff f1 f2 := by
  obtain ⟨pidx, sel', required, hs⟩ := getMeshPart_ok h
  obtain ⟨i0, hi0⟩ := List.mem_iff_getElem?.1 hsel
  obtain ⟨rfl, rfl⟩ := parts_index_unique hids hi0 hs.part
  have hv := hs.valid hids hsorted
  have hbase : ∀ {g : Nat} {grp : ElGroup N}, m.groups[g]? = some grp →
      m.baseOf g = (m.sizes.take g).sum := by
    intro g grp hg
    have hlt : g < m.groups.length := (List.getElem?_eq_some_iff.1 hg).1
    have hslen : m.sizes.length = m.groups.length := by simp [MMesh.sizes]
    unfold MMesh.baseOf
    rw [baseElementNrs_getElem? _ _ (by omega)]; rfl
  constructor
  · rintro ⟨l', rows, hl', hfg, hrow⟩
    rw [part_fags_getElem? hs] at hl'
    obtain ⟨l, hl, rfl⟩ := Option.map_eq_some_iff.1 hl'
    have hfg2 : Fag.interPart f1'.grp (.partition q) q rows aff ∈ selfToOther m
        (globalElemToPart (nelements m.sizes) parts) i0 (selfGroupBase pm.sizes)
        (connectedParts m parts (globalElemToPart (nelements m.sizes) parts) i0) f1'.grp l := by
      rcases mem_completeGroup.1 hfg with hfg | ⟨_, hfg⟩ | ⟨_, hfg⟩ | ⟨_, hfg⟩
      · rw [List.mem_append, List.mem_append] at hfg
        rcases hfg with (hfg | hfg) | hfg
        · exact absurd (not_interPart_selfToSelf hfg) (by simp [Fag.bdry?])
        · exact hfg
        · simp [partBoundaryGroups] at hfg
      all_goals simp at hfg
    obtain ⟨a, j, rows0, aff', ⟨q', qi⟩, h1, h2, h3, _⟩ := mem_selfToOther.1 hfg2
    simp only [Fag.interPart.injEq, true_and] at h3
    obtain ⟨_, rfl, rfl, rfl⟩ := h3
    obtain ⟨⟨selq, hqi⟩, hne, _⟩ := mem_connectedParts.1 h2
    obtain ⟨r0, hr0, hrow⟩ := List.mem_filterMap.1 hrow
    obtain ⟨k, k', hp, hq, h5⟩ := otherRow_eq_some.1 hrow
    obtain ⟨rfl, hfaces⟩ := ha.interior _ _ _ _ _ _ hl h1
    obtain ⟨⟨g1, hg1, hf1, he1⟩, ⟨g2, hg2, hf2, he2⟩⟩ := hfaces r0 hr0
    simp only [AdjRow.mk.injEq] at h5
    obtain ⟨h5, h6, rfl, rfl⟩ := h5
    obtain ⟨pq, hpq, hn⟩ := (partOf_iff hv).1 hq
    rw [hqi] at hpq; cases hpq
    refine ⟨?_, ⟨f1'.grp, r0.el, r0.face⟩, ⟨j, r0.nel, r0.nface⟩, selq, _, ⟨rfl, h6, ?_⟩,
      List.mem_of_getElem? hqi, hn, ⟨g2.nelements, ?_, he2, ?_⟩, rfl, ⟨l, rows0, hl, h1, hr0⟩⟩
    · rintro rfl
      exact hne (parts_index_unique hids hqi hi0).1
    · exact (partOf_sameElem hs hv hg1 he1).2 ⟨k, hp, h5.symm⟩
    · rw [sizes_getElem?, hg2]; rfl
    · rw [hbase hg2]; exact Nat.add_comm _ _
  · rintro ⟨hne, f1, f2, selq, e2, ⟨a1, a2, a3⟩, hq, hn, hgl, rfl, l, rows0, hl, hfg, hrow⟩
    obtain ⟨_, hfaces⟩ := ha.interior _ _ _ _ _ _ hl hfg
    obtain ⟨⟨g1, hg1, hf1, he1⟩, ⟨g2, hg2, hf2, he2⟩⟩ := hfaces _ hrow
    obtain ⟨k, hk, hk'⟩ := (partOf_sameElem hs hv hg1 he1).1 a3
    obtain ⟨qi, hqi⟩ := List.mem_iff_getElem?.1 hq
    have hpq : partOf (globalElemToPart (nelements m.sizes) parts) (f2.el + m.baseOf f2.grp)
        = some (qi, n) := by
      refine (partOf_iff hv).2 ⟨_, hqi, ?_⟩
      obtain ⟨_, _, _, he⟩ := hgl
      rw [hn, he, hbase hg2, Nat.add_comm]
    have hqne : qi ≠ i0 := by
      rintro rfl
      rw [hi0] at hqi; cases hqi; exact hne rfl
    have hrow' : (⟨f1'.el, f1'.face, n, f2.face⟩ : AdjRow) ∈ rows0.filterMap (otherRow m
        (globalElemToPart (nelements m.sizes) parts) i0 (selfGroupBase pm.sizes) f1.grp f2.grp
        qi) := by
      refine List.mem_filterMap.2 ⟨_, hrow, otherRow_eq_some.2 ⟨k, n, hk, hpq, ?_⟩⟩
      rw [hk', a2]
    refine ⟨_, _, by rw [part_fags_getElem? hs, a1, hl]; rfl, mem_completeGroup.2 (Or.inl ?_), hrow'⟩
    rw [List.mem_append, List.mem_append]
    refine Or.inl (Or.inr (mem_selfToOther.2 ⟨f1.grp, f2.grp, rows0, aff, (q, qi), hfg, ?_, ?_, ?_⟩))
    · exact mem_connectedParts.2 ⟨⟨selq, hqi⟩, hqne, f1.grp, l, _, _, rows0, aff, _, k, n, hl, hfg,
        hrow, hk, hpq⟩
    · rw [a1]
    · exact List.ne_nil_of_mem hrow'

/-- C12, agreement of the two sides: in a mesh with symmetric facial adjacency (`inv` inverts
affine maps), if part `p` records its face `f1'` to face the face `nf` of element `n` of part `q`,
then `p` and `q` are different, `q` has a part-wide element `n` with a face `nf`, and `q`'s record
of that face points back to `f1'` of `p`. -/
theorem C12_sides_agree {m : MMesh N P A} (ha : AdjOK m) {inv : A → A}
    (hsym : ∀ aff f f', IsNeighborVia m.fags aff f f' → IsNeighborVia m.fags (inv aff) f' f)
    {parts : Parts}
    (hids : (parts.map Prod.fst).Nodup) (hsorted : ∀ p ∈ parts, p.2.Pairwise (· < ·))
    {p q : Nat} {pm qm : MMesh N P A} (hp : getMeshPart m parts p = .ok pm)
    (hq : getMeshPart m parts q = .ok qm) {aff : A} {f1' : FaceId} {n nf : Nat}
    (h : FacesPart pm.fags aff f1' q n nf) :
    p ≠ q ∧ ∃ f2' n', f2'.face = nf ∧ IsGlobalNr qm.sizes f2'.grp f2'.el n ∧
      IsGlobalNr pm.sizes f1'.grp f1'.el n' ∧ FacesPart qm.fags (inv aff) f2' p n' f1'.face := by
  obtain ⟨pidx, selp, reqp, hsp⟩ := getMeshPart_ok hp
  obtain ⟨qidx, selq, reqq, hsq⟩ := getMeshPart_ok hq
  have hv := hsp.valid hids hsorted
  obtain ⟨hne, f1, f2, selq', e2, ⟨a1, a2, k, e, hk, hgk, hge⟩, hqm, hn, hg2, rfl, hnb⟩ :=
    (C12_inter_part_exact ha hids hsorted hp (List.mem_of_getElem? hsp.part) aff f1' q n nf).1 h
  obtain ⟨i, hi⟩ := List.mem_iff_getElem?.1 hqm
  obtain ⟨rfl, rfl⟩ := parts_index_unique hids hi hsq.part
  obtain ⟨hso, hra⟩ := hsq.selSorted hv
  have hf := hsq.filterSpec hv
  have hgl := (isGlobalNr_part hso hf hn (g := f2.grp) (n - startOf m.sizes selq' f2.grp)).2
  have hlt : ∃ sz, m.sizes[f2.grp]? = some sz := by obtain ⟨sz, h1, _⟩ := hg2; exact ⟨sz, h1⟩
  obtain ⟨sz, hsz⟩ := hlt
  have hblock := (startOf_block (sizes := m.sizes) (g := f2.grp) hso hn).2 (by
    obtain ⟨sz', h1, h2, h3⟩ := hg2
    rw [hsz] at h1; cases h1
    rw [take_succ_sum hsz]; omega)
  have hgl := hgl ⟨⟨_, hg2⟩, by omega⟩
  refine ⟨fun e => hne e.symm, ⟨f2.grp, n - startOf m.sizes selq' f2.grp, f2.face⟩, k, rfl, hgl,
    a1 ▸ hgk, ?_⟩
  rw [C12_inter_part_exact ha hids hsorted hq hqm]
  exact ⟨fun e => hne e.symm, f2, f1, selp, e, ⟨rfl, rfl, n, e2, hn, hgl, hg2⟩,
    List.mem_of_getElem? hsp.part, hk, hge, a2.symm, hsym _ _ _ hnb⟩

/-! ## C13 -/

theorem mem_partBoundary {m : MMesh N P A} {table : List (Option (Nat × Nat))} {self : Nat}
    {sb : Nat → Nat} {i : Nat} {l : List (Fag A)} {t : BTag} {x : ElFace} :
    ListedUnder (partBoundaryGroups m table self sb i l) t x ↔
      ∃ y k, ListedUnder l t y ∧ partOf table (y.el + m.baseOf i) = some (self, k) ∧
        x = ⟨k - sb i, y.face⟩ := by
  simp only [ListedUnder, partBoundaryGroups, List.mem_map, List.mem_filterMap]
  constructor
  · rintro ⟨fg, ⟨⟨t', fs⟩, ⟨fg0, hfg0, hb⟩, rfl⟩, fs', h1, hx⟩
    simp only [Fag.bdry?, Option.some.injEq, Prod.mk.injEq] at h1
    obtain ⟨rfl, rfl⟩ := h1
    obtain ⟨y, hy, hx⟩ := List.mem_filterMap.1 hx
    obtain ⟨k, hk, rfl⟩ := bdryRow_eq_some.1 hx
    exact ⟨y, k, ⟨fg0, hfg0, fs, hb, hy⟩, hk, rfl⟩
  · rintro ⟨y, k, ⟨fg0, hfg0, fs, hb, hy⟩, hk, rfl⟩
    exact ⟨_, ⟨(t, fs), ⟨fg0, hfg0, hb⟩, rfl⟩, _, rfl,
      List.mem_filterMap.2 ⟨y, hy, bdryRow_eq_some.2 ⟨k, hk, rfl⟩⟩⟩

theorem hasEntry_partBoundary {m : MMesh N P A} {table : List (Option (Nat × Nat))} {self : Nat}
    {sb : Nat → Nat} {i : Nat} {l : List (Fag A)} {t : BTag} (h : HasEntry l t) :
    HasEntry (partBoundaryGroups m table self sb i l) t := by
  obtain ⟨fg, hfg, fs, hb⟩ := h
  exact ⟨_, List.mem_map.2 ⟨(t, fs), List.mem_filterMap.2 ⟨fg, hfg, hb⟩, rfl⟩, _, rfl⟩

/-- C13 (partial): for every boundary tag `t` other than the tags of inter-part boundaries, a face
of a part is listed under `t` exactly when it is the copy of a face listed under `t` in the
original mesh.  In particular the faces in `BTAG_ALL` are the copies of those in `BTAG_ALL`.
Missing: the documentation's "`BTAG_REALLY_ALL` includes inter-part boundaries", see
`C13_really_all_counterexample`. -/
theorem C13_part_boundary_partial {m : MMesh N P A} (ha : AdjOK m)
    (hentry : ∀ l ∈ m.fags, HasEntry l .none ∧ HasEntry l .all ∧ HasEntry l .reallyAll)
    {parts : Parts}
    (hids : (parts.map Prod.fst).Nodup) (hsorted : ∀ p ∈ parts, p.2.Pairwise (· < ·))
    {pid : Nat} {pm : MMesh N P A} (h : getMeshPart m parts pid = .ok pm)
    {sel : List Nat} (hsel : (pid, sel) ∈ parts) (t : BTag) (ht : ∀ q, t ≠ .partition q)
    (f' : FaceId) :
    InBoundary pm.fags t f' ↔ ∃ f, SameFace m pm sel f' f ∧ InBoundary m.fags t f := by
  obtain ⟨pidx, sel', required, hs⟩ := getMeshPart_ok h
  obtain ⟨i0, hi0⟩ := List.mem_iff_getElem?.1 hsel
  obtain ⟨rfl, rfl⟩ := parts_index_unique hids hi0 hs.part
  have hv := hs.valid hids hsorted
  have hin : ∀ {fags : List (List (Fag A))} {f : FaceId}, InBoundary fags t f ↔
      ∃ l, fags[f.grp]? = some l ∧ ListedUnder l t ⟨f.el, f.face⟩ := by
    intro fags f
    constructor
    · rintro ⟨l, fg, fs, h1, h2, h3, h4⟩; exact ⟨l, h1, fg, h2, fs, h3, h4⟩
    · rintro ⟨l, h1, fg, h2, fs, h3, h4⟩; exact ⟨l, fg, fs, h1, h2, h3, h4⟩
  have key : ∀ {l : List (Fag A)} {i : Nat} {x : ElFace}, l ∈ m.fags →
      (ListedUnder (completeGroup i
      (selfToSelf m (globalElemToPart (nelements m.sizes) parts) i0 (selfGroupBase pm.sizes) i l
      ++ selfToOther m (globalElemToPart (nelements m.sizes) parts) i0 (selfGroupBase pm.sizes)
        (connectedParts m parts (globalElemToPart (nelements m.sizes) parts) i0) i l
      ++ partBoundaryGroups m (globalElemToPart (nelements m.sizes) parts) i0
        (selfGroupBase pm.sizes) i l)) t x ↔
      ListedUnder (partBoundaryGroups m (globalElemToPart (nelements m.sizes) parts) i0
        (selfGroupBase pm.sizes) i l) t x) := by
    intro l i x hl
    obtain ⟨e1, e2, e3⟩ := hentry l hl
    have hentry' : ∀ {t}, HasEntry l t → HasEntry
      (selfToSelf m (globalElemToPart (nelements m.sizes) parts) i0 (selfGroupBase pm.sizes) i l
      ++ selfToOther m (globalElemToPart (nelements m.sizes) parts) i0 (selfGroupBase pm.sizes)
        (connectedParts m parts (globalElemToPart (nelements m.sizes) parts) i0) i l
      ++ partBoundaryGroups m (globalElemToPart (nelements m.sizes) parts) i0
        (selfGroupBase pm.sizes) i l) t := by
      intro t ht
      obtain ⟨fg, hfg, fs, hb⟩ := hasEntry_partBoundary
        (m := m) (table := globalElemToPart (nelements m.sizes) parts) (self := i0)
        (sb := selfGroupBase pm.sizes) (i := i) ht
      exact ⟨fg, List.mem_append_right _ hfg, fs, hb⟩
    rw [(C05_completion i _).2.2.1 t x]
    · constructor
      · rintro ⟨fg, hfg, fs, hb, hx⟩
        rw [List.mem_append, List.mem_append] at hfg
        rcases hfg with (hfg | hfg) | hfg
        · rw [not_interPart_selfToSelf hfg] at hb; simp at hb
        · obtain ⟨_, _, _, _, q, _, _, rfl, _⟩ := mem_selfToOther.1 hfg
          simp only [Fag.bdry?, Option.some.injEq, Prod.mk.injEq] at hb
          exact absurd hb.1.symm (ht _)
        · exact ⟨fg, hfg, fs, hb, hx⟩
      · rintro ⟨fg, hfg, fs, hb, hx⟩
        exact ⟨fg, List.mem_append_right _ hfg, fs, hb, hx⟩
    · by_cases h1 : t = .none
      · subst h1; exact Or.inl (hentry' e1)
      · by_cases h2 : t = .all
        · subst h2; exact Or.inl (hentry' e2)
        · by_cases h3 : t = .reallyAll
          · subst h3; exact Or.inl (hentry' e3)
          · exact Or.inr ⟨h1, h2, h3⟩
  rw [hin]
  constructor
  · rintro ⟨l', hl', hx⟩
    rw [part_fags_getElem? hs] at hl'
    obtain ⟨l, hl, rfl⟩ := Option.map_eq_some_iff.1 hl'
    rw [key (List.mem_of_getElem? hl), mem_partBoundary] at hx
    obtain ⟨y, k, hy, hk, hxy⟩ := hx
    simp only [ElFace.mk.injEq] at hxy
    have hb : InBoundary m.fags t ⟨f'.grp, y.el, y.face⟩ := hin.2 ⟨l, hl, hy⟩
    obtain ⟨g, hg, _, hel⟩ := ha.boundary _ _ hb
    exact ⟨⟨f'.grp, y.el, y.face⟩, ⟨rfl, hxy.2,
      (partOf_sameElem hs hv hg hel).2 ⟨k, hk, hxy.1.symm⟩⟩, hb⟩
  · rintro ⟨f, ⟨a1, a2, a3⟩, hb⟩
    obtain ⟨g, hg, _, hel⟩ := ha.boundary _ _ hb
    obtain ⟨k, hk, hk'⟩ := (partOf_sameElem hs hv hg hel).1 a3
    obtain ⟨l, hl, hy⟩ := hin.1 hb
    refine ⟨_, by rw [part_fags_getElem? hs, a1, hl]; rfl, ?_⟩
    rw [key (List.mem_of_getElem? hl), mem_partBoundary]
    exact ⟨_, k, hy, hk, by rw [hk', a2]⟩

/-! ## Example -/

/-- Three segments `0-1-2-3` in two groups, the ends of the domain being tagged. -/
def exPartMesh : MMesh Nat Nat Unit where
  vertices := [10, 11, 12, 13]
  groups := [⟨0, [[0], [1]], [[0, 1], [1, 2]], [100, 101]⟩, ⟨0, [[0], [1]], [[2, 3]], [102]⟩]
  fags := computeFacial () [⟨0, [[0], [1]], [[0, 1], [1, 2]], [(), ()]⟩,
    ⟨0, [[0], [1]], [[2, 3]], [()]⟩] [([0], [.user 7 false])] [.user 7 false]

/-- Elements 0 and 2 make part 5, element 1 makes part 3. -/
def exParts : Parts := [(5, [0, 2]), (3, [1])]

/-- Part 5 of the example. -/
def exPart5 : MMesh Nat Nat Unit where
  vertices := [10, 11, 12, 13]
  groups := [⟨0, [[0], [1]], [[0, 1]], [100]⟩, ⟨0, [[0], [1]], [[2, 3]], [102]⟩]
  fags := [[.interPart 0 (.partition 3) 3 [⟨0, 1, 0, 0⟩] (), .boundary 0 (.user 7 false) [⟨0, 0⟩],
      .boundary 0 .none [], .boundary 0 .all [⟨0, 0⟩], .boundary 0 .reallyAll [⟨0, 0⟩]],
    [.interPart 1 (.partition 3) 3 [⟨0, 0, 0, 1⟩] (), .boundary 1 .all [⟨0, 1⟩],
      .boundary 1 .none [], .boundary 1 .reallyAll [⟨0, 1⟩]]]

/-- Part 3 of the example. -/
def exPart3 : MMesh Nat Nat Unit where
  vertices := [11, 12]
  groups := [⟨0, [[0], [1]], [[0, 1]], [101]⟩, ⟨0, [[0], [1]], [], []⟩]
  fags := [[.interPart 0 (.partition 5) 5 [⟨0, 0, 0, 1⟩] (),
      .interPart 0 (.partition 5) 5 [⟨0, 1, 1, 0⟩] (),
      .boundary 0 (.user 7 false) [], .boundary 0 .none [], .boundary 0 .all [],
      .boundary 0 .reallyAll []],
    [.boundary 1 .all [], .boundary 1 .none [], .boundary 1 .reallyAll []]]

/-- Non-vacuity of C09 to C13: both parts exist. -/
theorem exParts_made : getMeshPart exPartMesh exParts 5 = .ok exPart5 ∧
    getMeshPart exPartMesh exParts 3 = .ok exPart3 := by
  constructor <;> decide +kernel

theorem exParts_ok : (exParts.map Prod.fst).Nodup ∧ ∀ p ∈ exParts, p.2.Pairwise (· < ·) := by
  constructor
  · decide
  · intro p hp
    simp only [exParts, List.mem_cons, List.not_mem_nil, or_false] at hp
    rcases hp with rfl | rfl <;> decide

theorem exPartMesh_ok : MeshOK exPartMesh := by
  refine ⟨?_, by decide⟩
  unfold exPartMesh ElGroup.WF; decide

/-- A check of `AdjOK`, used for examples. -/
def adjCheck (m : MMesh N P A) : Bool :=
  m.fags.length == m.groups.length && m.fags.zipIdx.all fun p => p.1.all fun
    | .interior a j rows _ => a == p.2 && rows.all fun r =>
        decide ((⟨p.2, r.el, r.face⟩ : FaceId) ∈ allFaceIds m.groups) &&
        decide ((⟨j, r.nel, r.nface⟩ : FaceId) ∈ allFaceIds m.groups)
    | .boundary _ _ fs => fs.all fun x =>
        decide ((⟨p.2, x.el, x.face⟩ : FaceId) ∈ allFaceIds m.groups)
    | .interPart _ _ _ rows _ => rows.all fun x =>
        decide ((⟨p.2, x.el, x.face⟩ : FaceId) ∈ allFaceIds m.groups)

theorem adjOK_of_check {m : MMesh N P A} (h : adjCheck m = true) : AdjOK m := by
  simp only [adjCheck, Bool.and_eq_true, beq_iff_eq, List.all_eq_true] at h
  obtain ⟨h0, h⟩ := h
  refine ⟨h0, ?_, ?_⟩
  · intro i l a j rows aff hl hfg
    have := h (l, i) (List.mem_zipIdx_iff_getElem?.2 hl) _ hfg
    simp only [Bool.and_eq_true, beq_iff_eq, List.all_eq_true, decide_eq_true_eq] at this
    exact ⟨this.1, fun r hr => ⟨mem_allFaceIds.1 (this.2 r hr).1, mem_allFaceIds.1 (this.2 r hr).2⟩⟩
  · rintro t ⟨i, e, f⟩ ⟨l, fg, fs, hl, hfg, hb, hx⟩
    have := h (l, i) (List.mem_zipIdx_iff_getElem?.2 hl) _ hfg
    cases fg with
    | interior => simp [Fag.bdry?] at hb
    | boundary _ t' fs' =>
      simp only [Fag.bdry?, Option.some.injEq, Prod.mk.injEq] at hb
      obtain ⟨rfl, rfl⟩ := hb
      simp only [List.all_eq_true, decide_eq_true_eq] at this
      exact mem_allFaceIds.1 (this _ hx)
    | interPart _ t' _ rows _ =>
      simp only [Fag.bdry?, Option.some.injEq, Prod.mk.injEq] at hb
      obtain ⟨rfl, rfl⟩ := hb
      simp only [List.all_eq_true, decide_eq_true_eq] at this
      obtain ⟨r, hr, hrx⟩ := List.mem_map.1 hx
      simp only [ElFace.mk.injEq] at hrx
      obtain ⟨rfl, rfl⟩ := hrx
      exact mem_allFaceIds.1 (this _ hr)

/-- Non-vacuity of the hypothesis `AdjOK` of C11-C13. -/
theorem exPartMesh_adjOK : AdjOK exPartMesh := adjOK_of_check (by decide +kernel)

/-- Non-vacuity of C11: across groups, nothing is adjacent inside part 5; in the partition into one
part, face 1 of element 0 is adjacent to face 0 of element 1. -/
example : ∃ pm, getMeshPart exPartMesh [(0, [0, 1, 2])] 0 = .ok pm ∧
    IsNeighborVia pm.fags () ⟨0, 0, 1⟩ ⟨0, 1, 0⟩ := by
  have key : (((exPartMesh.fags[0]?).getD []).any fun
      | .interior i j rows _ => i == 0 && j == 0 && decide ((⟨0, 1, 1, 0⟩ : AdjRow) ∈ rows)
      | _ => false) = true := by decide +kernel
  refine ⟨exPartMesh, by decide +kernel, ?_⟩
  obtain ⟨fg, hfg, hm⟩ := List.any_eq_true.1 key
  cases hl : exPartMesh.fags[0]? with
  | none => simp [hl] at hfg
  | some l =>
    simp only [hl, Option.getD_some] at hfg
    cases fg with
    | interior i j rows aff =>
      simp only [Bool.and_eq_true, beq_iff_eq, decide_eq_true_eq] at hm
      obtain ⟨⟨rfl, rfl⟩, hr⟩ := hm
      exact ⟨l, rows, hl, hfg, hr⟩
    | boundary => simp at hm
    | interPart => simp at hm

/-- Non-vacuity of C12: part 3's face 1 faces element 1 (part-wide; element 0 of group 1) of
part 5. -/
example : FacesPart exPart3.fags () ⟨0, 0, 1⟩ 5 1 0 ∧ FacesPart exPart5.fags () ⟨1, 0, 0⟩ 3 0 1 :=
  ⟨⟨_, [⟨0, 1, 1, 0⟩], rfl, by decide, by decide⟩, ⟨_, [⟨0, 0, 0, 1⟩], rfl, by decide, by decide⟩⟩

/-- Non-vacuity of C13: its remaining hypothesis, and a tagged face of part 5. -/
example : (∀ l ∈ exPartMesh.fags, HasEntry l .none ∧ HasEntry l .all ∧ HasEntry l .reallyAll) ∧
    InBoundary exPart5.fags (.user 7 false) ⟨0, 0, 0⟩ := by
  refine ⟨?_, ⟨_, .boundary 0 (.user 7 false) [⟨0, 0⟩], _, rfl, by decide, rfl, by decide⟩⟩
  intro l hl
  simp only [hasEntry_iff]
  revert l
  decide +kernel

/-- C13 fails for `BTAG_REALLY_ALL`: face 1 of element 0 of part 5 of the example faces part 3, but
is not in the part's `BTAG_REALLY_ALL`, which is documented to include inter-part boundaries
(meshmode/mesh/__init__.py:120-130). -/
theorem C13_really_all_counterexample :
    getMeshPart exPartMesh exParts 5 = .ok exPart5 ∧ FacesPart exPart5.fags () ⟨0, 0, 1⟩ 3 0 0 ∧
      ¬ InBoundary exPart5.fags .reallyAll ⟨0, 0, 1⟩ := by
  refine ⟨exParts_made.1, ⟨_, [⟨0, 1, 0, 0⟩], rfl, by decide, by decide⟩, ?_⟩
  rintro ⟨l, fg, fs, hl, hfg, hb, hx⟩
  simp only [exPart5, List.getElem?_cons_zero, Option.some.injEq] at hl
  subst hl
  simp only [List.mem_cons, List.not_mem_nil, or_false] at hfg
  rcases hfg with rfl | rfl | rfl | rfl | rfl <;> simp [Fag.bdry?] at hb
  subst hb
  simp at hx

end Meshmode
