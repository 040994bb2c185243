import Verif.Connection.Traces

/-!
# Parts of meshes with computed adjacency: property C106

`make_mesh` computes the facial adjacency from the vertex numbers of the faces; `partition_mesh` derives the adjacency
of a part from the adjacency of the mesh.  Here both are compared: computing the adjacency of the part anew from its
(renumbered) vertices gives the same neighbours, and the boundary that is found anew is the old boundary together with
the faces towards other parts.
-/
namespace Meshmode

variable {N P A : Type}

/-! ## The computed adjacency satisfies what partitioning needs -/

theorem computeFacial_getElem? {groups : List (ElGroup N)} (aff0 : A) (dict : List (List Nat × List BTag))
    (btags : List BTag) (i : Nat) : (computeFacial aff0 groups dict btags)[i]? = groups[i]?.map fun g =>
      completeGroup i (interiorGroups aff0 (meshFacePairs groups) i
        ++ boundaryGroups groups dict btags (meshFacePairs groups) i g) := by
  unfold computeFacial
  rw [completeFacial_getElem?, rawFacial_getElem?, Option.map_map]
  rfl

/-- C106: the adjacency computed from vertices refers to existing faces only. -/
theorem C106_adjacency_valid {m : MMesh N P A} (hwf : ∀ g ∈ m.groups, g.WF) {aff0 : A}
    {dict : List (List Nat × List BTag)} {btags : List BTag}
    (hm : m.fags = computeFacial aff0 m.groups dict btags) : AdjOK m := by
  refine ⟨?_, ?_, ?_⟩
  · rw [hm]
    simp [computeFacial, completeFacial, rawFacial]
  · intro i l a j rows aff hl hfg
    rw [hm, computeFacial_getElem?] at hl
    obtain ⟨g, hg, rfl⟩ := Option.map_eq_some_iff.1 hl
    rw [mem_completeGroup_interior, List.mem_append] at hfg
    rcases hfg with hfg | hfg
    · obtain ⟨rfl, _, _, rfl⟩ := mem_interiorGroups.1 hfg
      refine ⟨rfl, ?_⟩
      intro r hr
      obtain ⟨⟨f, f'⟩, hp, rfl⟩ := List.mem_map.1 hr
      simp only [List.mem_filter, beq_iff_eq] at hp
      obtain ⟨⟨hp, rfl⟩, rfl⟩ := hp
      obtain ⟨h1, h2, _⟩ := meshFacePairs_props hwf hp
      exact ⟨h1, h2⟩
    · exact absurd hfg boundaryGroups_not_interior
  · intro t f h
    rw [hm] at h
    have hg : ∃ g, m.groups[f.grp]? = some g := by
      obtain ⟨l, _, _, hl, _⟩ := h
      rw [computeFacial_getElem?] at hl
      obtain ⟨g, hg, _⟩ := Option.map_eq_some_iff.1 hl
      exact ⟨g, hg⟩
    obtain ⟨g, hg⟩ := hg
    rw [inBoundary_iff_listed hg] at h
    obtain ⟨t', ht'⟩ := listedUnder_complete h
    exact ((mem_unmatchedFaces_iff hwf hg).1 (listedUnder_raw_iff.1 ht').1).1

theorem computed_entries {m : MMesh N P A} {aff0 : A} {dict : List (List Nat × List BTag)} {btags : List BTag}
    (hm : m.fags = computeFacial aff0 m.groups dict btags) :
    ∀ l ∈ m.fags, HasEntry l .none ∧ HasEntry l .all ∧ HasEntry l .reallyAll := by
  intro l hl
  obtain ⟨i, hi⟩ := List.mem_iff_getElem?.1 hl
  rw [hm, computeFacial_getElem?] at hi
  obtain ⟨g, hg, rfl⟩ := Option.map_eq_some_iff.1 hi
  have h := (C05_completion i (interiorGroups aff0 (meshFacePairs m.groups) i
      ++ boundaryGroups m.groups dict btags (meshFacePairs m.groups) i g)).2.1
  exact ⟨h _ (by simp), h _ (by simp), h _ (by simp)⟩

/-- C106: what C11-C13 and C102-C104 ask of a mesh and lists of elements holds for meshes with computed adjacency, no
three faces of which have the same vertices. -/
theorem C106_partitioned {m : MMesh N P A} (hwf : ∀ g ∈ m.groups, g.WF) (htwo : AtMostTwoSides m.groups) {aff0 : A}
    {dict : List (List Nat × List BTag)} {btags : List BTag}
    (hm : m.fags = computeFacial aff0 m.groups dict btags) (hra : BTag.reallyAll ∉ btags)
    (hpt : ∀ q, BTag.partition q ∉ btags) {parts : Parts} (hids : (parts.map Prod.fst).Nodup)
    (hsorted : ∀ p ∈ parts, p.2.Pairwise (· < ·)) : Partitioned m parts ∧
      ∀ l ∈ m.fags, HasEntry l .none ∧ HasEntry l .all ∧ HasEntry l .reallyAll := by
  refine ⟨⟨C106_adjacency_valid hwf hm, ?_, hids, hsorted, ?_⟩, ?_⟩
  · rw [hm]
    exact C29_computed_adjacency hwf htwo aff0 dict btags hra
  · intro l hl fg hfg q fs hb
    obtain ⟨i, hi⟩ := List.mem_iff_getElem?.1 hl
    rw [hm, computeFacial_getElem?] at hi
    obtain ⟨g, hg, rfl⟩ := Option.map_eq_some_iff.1 hi
    rcases mem_completeGroup.1 hfg with h | ⟨_, rfl⟩ | ⟨_, rfl⟩ | ⟨_, rfl⟩
    · rcases List.mem_append.1 h with h | h
      · rw [interiorGroups_bdry h] at hb
        cases hb
      · rcases boundaryGroups_tag h hb with ⟨h, _⟩ | ⟨h, _⟩
        · exact hpt q h
        · cases h
    all_goals simp [Fag.bdry?] at hb
  · exact computed_entries hm

/-! ## Vertices of the faces of a part -/

section
variable {m : MMesh N P A} {parts : Parts} {p : Nat} {pm : MMesh N P A} {selp : List Nat}

theorem sameElem_row (hP : Partitioned m parts)
    {pidx : Nat} {required : List Nat} (hs : PartSpec m parts p pm pidx selp required) {g i' i : Nat}
    (h : SameElem m pm selp g i' i) : ∃ grp grp' row, m.groups[g]? = some grp ∧ pm.groups[g]? = some grp' ∧
      grp'.fvi = grp.fvi ∧ grp.vertexIndices[i]? = some row ∧ (∀ v ∈ row, v ∈ required) ∧
      grp'.vertexIndices[i']? = some (row.map (npSearchsorted required ·)) := by
  have hv := hs.valid hP.ids hP.sorted
  obtain ⟨hso, hra⟩ := hs.selSorted hv
  have hf := hs.filterSpec hv
  have hslen : m.sizes.length = m.groups.length := by simp [MMesh.sizes]
  obtain ⟨k, e, hk, hgl, n, hn, hin, he⟩ := h
  rw [sizes_getElem?, Option.map_eq_some_iff] at hn
  obtain ⟨grp, hg, rfl⟩ := hn
  have hlt : g < m.sizes.length := by rw [hslen]; exact (List.getElem?_eq_some_iff.1 hg).1
  have hk' := ((isGlobalNr_part hso hf hk i').1 hgl).2
  have hblock := (startOf_block (sizes := m.sizes) (g := g) hso hk).2 (by
    rw [take_succ_sum (n := grp.nelements) (by rw [sizes_getElem?, hg]; rfl)]; omega)
  obtain ⟨grp', h1, _, h0, _, h2⟩ := hf.group g grp hg
  obtain ⟨f1, f2⟩ := filteredElements_spec hso hra hlt
  have hj : i' < (filteredElements m.sizes selp g).length := by omega
  have hji := List.getElem?_eq_getElem hj
  have h3 := (f2 _ _ hji).1
  rw [← hk', hk] at h3
  simp only [Option.some.injEq] at h3
  have h4 : (filteredElements m.sizes selp g)[i'] = i := by omega
  rw [h4] at hji
  obtain ⟨_, row, hrow, hreq, hrow'⟩ := h2 _ _ hji
  exact ⟨grp, grp', row, hg, h1, h0, hrow, hreq, hrow'⟩

theorem mapM_getElem?_map (f : Nat → Nat) (row ref : List Nat) :
    ref.mapM ((row.map f)[·]?) = (ref.mapM (row[·]?)).map (List.map f) := by
  induction ref with
  | nil => rfl
  | cons k ref ih =>
    rw [List.mapM_cons, List.mapM_cons, ih, List.getElem?_map]
    cases row[k]? with
    | none => rfl
    | some v =>
      cases ref.mapM (row[·]?) with
      | none => rfl
      | some vs => rfl

theorem mapM_getElem?_mem {row : List Nat} : ∀ {ref vs : List Nat}, ref.mapM (row[·]?) = some vs → ∀ v ∈ vs, v ∈ row
  | [], vs, h, v, hv => by
    obtain rfl : [] = vs := by simpa using h
    cases hv
  | k :: ref, vs, h, v, hv => by
    rw [List.mapM_cons] at h
    obtain ⟨a, ha, h⟩ := Option.bind_eq_some_iff.1 h
    obtain ⟨bs, hbs, h⟩ := Option.bind_eq_some_iff.1 h
    obtain rfl : a :: bs = vs := by simpa using h
    rcases List.mem_cons.1 hv with rfl | hv
    · exact List.mem_of_getElem? ha
    · exact mapM_getElem?_mem hbs v hv

theorem sameFace_verts (hP : Partitioned m parts)
    {pidx : Nat} {required : List Nat} (hs : PartSpec m parts p pm pidx selp required) {f' f : FaceId}
    (h : SameFace m pm selp f' f) :
    faceVerts pm.groups f' = (faceVerts m.groups f).map (List.map (npSearchsorted required ·)) ∧
      ∀ vs, faceVerts m.groups f = some vs → ∀ v ∈ vs, v ∈ required := by
  obtain ⟨h1, h2, h3⟩ := h
  obtain ⟨grp, grp', row, a1, a2, a3, a4, a5, a6⟩ := sameElem_row hP hs h3
  unfold faceVerts
  rw [h1, h2, a1, a2]
  simp only [Option.bind_eq_bind, Option.bind_some, a3]
  cases grp.fvi[f.face]? with
  | none => simp
  | some ref =>
    simp only [Option.bind_some, a4, a6]
    refine ⟨mapM_getElem?_map _ _ _, ?_⟩
    intro vs hvs v hv
    exact a5 v (mapM_getElem?_mem hvs v hv)

theorem npSearchsorted_inj {l : List Nat} (h : l.Pairwise (· < ·)) {a b : Nat} (ha : a ∈ l) (hb : b ∈ l)
    (he : npSearchsorted l a = npSearchsorted l b) : a = b := by
  have h1 := npSearchsorted_of_mem h ha
  have h2 := npSearchsorted_of_mem h hb
  rw [he, h2] at h1
  exact (Option.some.inj h1).symm

theorem map_perm_of_inj {f : Nat → Nat} {as bs : List Nat} {S : List Nat}
    (hinj : ∀ a ∈ S, ∀ b ∈ S, f a = f b → a = b) (ha : ∀ a ∈ as, a ∈ S) (hb : ∀ b ∈ bs, b ∈ S)
    (h : (as.map f).Perm (bs.map f)) : as.Perm bs := by
  rw [List.perm_iff_count]
  intro x
  by_cases hx : x ∈ S
  · have hc : ∀ l : List Nat, (∀ a ∈ l, a ∈ S) → (l.map f).count (f x) = l.count x := by
      intro l hl
      induction l with
      | nil => rfl
      | cons y l ih =>
        rw [List.map_cons, List.count_cons, List.count_cons, ih fun a ha => hl a (List.mem_cons_of_mem _ ha)]
        by_cases hyx : y = x
        · subst hyx
          simp
        · have : f y ≠ f x := fun he => hyx (hinj y (hl y List.mem_cons_self) x hx he)
          simp [hyx, this]
    rw [← hc as ha, ← hc bs hb]
    exact h.count_eq _
  · rw [List.count_eq_zero_of_not_mem fun hm => hx (ha x hm), List.count_eq_zero_of_not_mem fun hm => hx (hb x hm)]

/-- Two faces of a part have the same vertices exactly if they have in the mesh. -/
theorem sameVertices_part (hP : Partitioned m parts) (hp : getMeshPart m parts p = .ok pm) (hselp : (p, selp) ∈ parts)
    {f1' f1 f2' f2 : FaceId} (h1 : SameFace m pm selp f1' f1) (h2 : SameFace m pm selp f2' f2) :
    SameVertices pm.groups f1' f2' ↔ SameVertices m.groups f1 f2 := by
  obtain ⟨pidx, required, hs, hv⟩ := hP.spec hp hselp
  have hso := (hs.filterSpec hv).required_sorted
  obtain ⟨a1, a2⟩ := sameFace_verts hP hs h1
  obtain ⟨b1, b2⟩ := sameFace_verts hP hs h2
  unfold SameVertices
  constructor
  · rintro ⟨vs, vs', hvs, hvs', hperm⟩
    rw [a1] at hvs
    rw [b1] at hvs'
    obtain ⟨us, hus, rfl⟩ := Option.map_eq_some_iff.1 hvs
    obtain ⟨us', hus', rfl⟩ := Option.map_eq_some_iff.1 hvs'
    exact ⟨us, us', hus, hus', map_perm_of_inj (fun a ha b hb he => npSearchsorted_inj hso ha hb he) (a2 us hus)
      (b2 us' hus') hperm⟩
  · rintro ⟨us, us', hus, hus', hperm⟩
    exact ⟨_, _, by rw [a1, hus]; rfl, by rw [b1, hus']; rfl, hperm.map _⟩

theorem isFace_part (hP : Partitioned m parts) (hp : getMeshPart m parts p = .ok pm) (hselp : (p, selp) ∈ parts)
    {f' : FaceId} (h : IsFace pm.groups f') : ∃ f, SameFace m pm selp f' f ∧ IsFace m.groups f := by
  obtain ⟨grp', hg', h1, h2⟩ := h
  obtain ⟨e, he⟩ := sameElem_of_part hP hp hselp hg' h2
  obtain ⟨grp, grp'', a1, a2, a3, a4, a5⟩ := sameElem_range hP hp hselp he
  rw [hg'] at a2
  obtain rfl := Option.some.inj a2
  exact ⟨⟨f'.grp, e, f'.face⟩, ⟨rfl, rfl, he⟩, grp, a1, by simp only; omega, a3⟩

theorem sameFace_isFace (hP : Partitioned m parts) (hp : getMeshPart m parts p = .ok pm) (hselp : (p, selp) ∈ parts)
    {f' f : FaceId} (h : SameFace m pm selp f' f) : IsFace pm.groups f' ↔ IsFace m.groups f := by
  obtain ⟨h1, h2, h3⟩ := h
  obtain ⟨grp, grp', a1, a2, a3, a4, a5⟩ := sameElem_range hP hp hselp h3
  unfold IsFace
  rw [h1, h2, a1, a2]
  simp only [Option.some.injEq, exists_eq_left', a5, a3, a4]

theorem sameFace_eq_iff (hP : Partitioned m parts) (hselp : (p, selp) ∈ parts) {f1' f1 f2' f2 : FaceId}
    (h1 : SameFace m pm selp f1' f1) (h2 : SameFace m pm selp f2' f2) : f1' = f2' ↔ f1 = f2 := by
  have hnd : selp.Nodup := (hP.sorted _ hselp).imp fun h => Nat.ne_of_lt h
  obtain ⟨a1, a2, a3⟩ := h1
  obtain ⟨b1, b2, b3⟩ := h2
  constructor
  · rintro rfl
    have hg : f1.grp = f2.grp := a1.symm.trans b1
    have hf : f1.face = f2.face := a2.symm.trans b2
    rw [← hg] at b3
    have he := sameElem_fun a3 b3
    cases f1; cases f2
    simp_all
  · rintro rfl
    have he := sameElem_inj hnd a3 b3
    cases f1'; cases f2'
    simp_all

/-- C106: the elements of a part have as many faces and vertices as before, and no three faces of a part have the same
vertices, if no three faces of the mesh have. -/
theorem C106_part_groups (hwf : ∀ g ∈ m.groups, g.WF) (hP : Partitioned m parts)
    (hp : getMeshPart m parts p = .ok pm) : (∀ g ∈ pm.groups, g.WF) ∧
      (AtMostTwoSides m.groups → AtMostTwoSides pm.groups) := by
  obtain ⟨selp, hselp, _⟩ := C09_part_elements hP.ids hP.sorted hp
  obtain ⟨pidx, required, hs, hv⟩ := hP.spec hp hselp
  have hf := hs.filterSpec hv
  constructor
  · intro grp' hmem
    obtain ⟨g, hg'⟩ := List.mem_iff_getElem?.1 hmem
    have hlt : g < m.groups.length := by rw [← hf.length]; exact (List.getElem?_eq_some_iff.1 hg').1
    obtain ⟨grp2, b1, _, b2, b3, _⟩ := hf.group g _ (List.getElem?_eq_getElem hlt)
    rw [hg'] at b1
    obtain rfl := Option.some.inj b1
    refine ⟨b3, ?_⟩
    intro row' hrow' ref href k hk
    obtain ⟨i', hi'⟩ := List.mem_iff_getElem?.1 hrow'
    have hlt' : i' < grp'.nelements := by
      have := (List.getElem?_eq_some_iff.1 hi').1
      unfold ElGroup.nelements
      omega
    obtain ⟨e, he⟩ := sameElem_of_part hP hp hselp hg' hlt'
    obtain ⟨grp, grp'', row, a1, a2, a3, a4, a5, a6⟩ := sameElem_row hP hs he
    rw [hg'] at a2
    obtain rfl := Option.some.inj a2
    rw [hi'] at a6
    obtain rfl := Option.some.inj a6
    rw [List.length_map]
    exact (hwf grp (List.mem_of_getElem? a1)).2 row (List.mem_of_getElem? a4) ref (a3 ▸ href) k hk
  · intro htwo f1' f2' f3' h1 h2 h3 s2 s3 n2 n3
    obtain ⟨f1, a1, b1⟩ := isFace_part hP hp hselp h1
    obtain ⟨f2, a2, b2⟩ := isFace_part hP hp hselp h2
    obtain ⟨f3, a3, b3⟩ := isFace_part hP hp hselp h3
    rw [sameVertices_part hP hp hselp a1 a2] at s2
    rw [sameVertices_part hP hp hselp a1 a3] at s3
    rw [Ne, sameFace_eq_iff hP hselp a1 a2] at n2
    rw [Ne, sameFace_eq_iff hP hselp a1 a3] at n3
    rw [sameFace_eq_iff hP hselp a2 a3]
    exact htwo f1 f2 f3 b1 b2 b3 s2 s3 n2 n3

end

/-! ## Recomputing the adjacency of a part -/

theorem isNeighbor_iff_via {fags : List (List (Fag A))} {f f' : FaceId} :
    IsNeighbor fags f f' ↔ ∃ aff, IsNeighborVia fags aff f f' := by
  constructor
  · rintro ⟨l, rows, aff, h⟩
    exact ⟨aff, l, rows, h⟩
  · rintro ⟨aff, l, rows, h⟩
    exact ⟨l, rows, aff, h⟩

/-- In computed adjacency, neighbours are the pairs of different faces with the same vertices. -/
theorem isNeighbor_computed_iff {groups : List (ElGroup N)} (hwf : ∀ g ∈ groups, g.WF) (htwo : AtMostTwoSides groups)
    (aff0 : A) (dict : List (List Nat × List BTag)) (btags : List BTag) {f f' : FaceId} :
    IsNeighbor (computeFacial aff0 groups dict btags) f f' ↔
      IsFace groups f ∧ IsFace groups f' ∧ f ≠ f' ∧ SameVertices groups f f' := by
  rw [isNeighbor_computeFacial hwf]
  constructor
  · intro h
    obtain ⟨h1, h2, h3, h4, _⟩ := meshFacePairs_props hwf h
    exact ⟨h1, h2, h3, h4⟩
  · rintro ⟨h1, h2, h3, h4⟩
    obtain ⟨f'', h5⟩ := meshFacePairs_exists h1 h2 h3 h4
    obtain ⟨_, a2, a3, a4, _⟩ := meshFacePairs_props hwf h5
    rw [htwo f f' f'' h1 h2 a2 h4 a4 h3 a3]
    exact h5

section
variable {m : MMesh N P A} {parts : Parts} {p : Nat} {pm : MMesh N P A}

/-- C106: two faces of a part of a mesh with computed adjacency are neighbours exactly if they are when the adjacency
of the part is computed anew from its own vertices. -/
theorem C106_neighbours (hwf : ∀ g ∈ m.groups, g.WF) (htwo : AtMostTwoSides m.groups) {aff0 : A}
    {dict : List (List Nat × List BTag)} {btags : List BTag}
    (hm : m.fags = computeFacial aff0 m.groups dict btags) (hP : Partitioned m parts)
    (hp : getMeshPart m parts p = .ok pm) (aff1 : A) (dict' : List (List Nat × List BTag)) (btags' : List BTag)
    (f1' f2' : FaceId) :
    IsNeighbor pm.fags f1' f2' ↔ IsNeighbor (computeFacial aff1 pm.groups dict' btags') f1' f2' := by
  obtain ⟨selp, hselp, _⟩ := C09_part_elements hP.ids hP.sorted hp
  obtain ⟨hwf', htwo'⟩ := C106_part_groups hwf hP hp
  rw [isNeighbor_computed_iff hwf' (htwo' htwo)]
  have hvia : IsNeighbor pm.fags f1' f2' ↔ ∃ f1 f2, SameFace m pm selp f1' f1 ∧ SameFace m pm selp f2' f2 ∧
      IsNeighbor m.fags f1 f2 := by
    rw [isNeighbor_iff_via]
    constructor
    · rintro ⟨aff, h⟩
      obtain ⟨f1, f2, h1, h2, h3⟩ := (C11_part_internal_connectivity hP.adj hP.ids hP.sorted hp hselp aff f1' f2').1 h
      exact ⟨f1, f2, h1, h2, isNeighbor_iff_via.2 ⟨aff, h3⟩⟩
    · rintro ⟨f1, f2, h1, h2, h3⟩
      obtain ⟨aff, h3⟩ := isNeighbor_iff_via.1 h3
      exact ⟨aff, (C11_part_internal_connectivity hP.adj hP.ids hP.sorted hp hselp aff f1' f2').2 ⟨f1, f2, h1, h2, h3⟩⟩
  rw [hvia]
  constructor
  · rintro ⟨f1, f2, h1, h2, h3⟩
    rw [hm, isNeighbor_computed_iff hwf htwo] at h3
    obtain ⟨a1, a2, a3, a4⟩ := h3
    exact ⟨(sameFace_isFace hP hp hselp h1).2 a1, (sameFace_isFace hP hp hselp h2).2 a2,
      fun he => a3 ((sameFace_eq_iff hP hselp h1 h2).1 he), (sameVertices_part hP hp hselp h1 h2).2 a4⟩
  · rintro ⟨a1, a2, a3, a4⟩
    obtain ⟨f1, h1, b1⟩ := isFace_part hP hp hselp a1
    obtain ⟨f2, h2, b2⟩ := isFace_part hP hp hselp a2
    refine ⟨f1, f2, h1, h2, ?_⟩
    rw [hm, isNeighbor_computed_iff hwf htwo]
    exact ⟨b1, b2, fun he => a3 ((sameFace_eq_iff hP hselp h1 h2).2 he), (sameVertices_part hP hp hselp h1 h2).1 a4⟩

/-- C106: the boundary found when the adjacency of a part is computed anew consists of the part's own
`BTAG_REALLY_ALL` and of the faces towards other parts; no face is in both. -/
theorem C106_boundary (hwf : ∀ g ∈ m.groups, g.WF) (htwo : AtMostTwoSides m.groups) {aff0 : A}
    {dict : List (List Nat × List BTag)} {btags : List BTag}
    (hm : m.fags = computeFacial aff0 m.groups dict btags) (hra : BTag.reallyAll ∉ btags)
    (hpt : ∀ q, BTag.partition q ∉ btags) (hids : (parts.map Prod.fst).Nodup)
    (hsorted : ∀ p ∈ parts, p.2.Pairwise (· < ·)) (hp : getMeshPart m parts p = .ok pm) (aff1 : A)
    (dict' : List (List Nat × List BTag)) {btags' : List BTag} (hra' : BTag.reallyAll ∉ btags') (f' : FaceId)
    (hf' : IsFace pm.groups f') :
    (InBoundary (computeFacial aff1 pm.groups dict' btags') .reallyAll f' ↔
      InBoundary pm.fags .reallyAll f' ∨ ∃ aff q n nf, FacesPart pm.fags aff f' q n nf) ∧
    ¬ (InBoundary pm.fags .reallyAll f' ∧ ∃ aff q n nf, FacesPart pm.fags aff f' q n nf) := by
  obtain ⟨hP, hentry⟩ := C106_partitioned hwf htwo hm hra hpt hids hsorted
  obtain ⟨selp, hselp, _⟩ := C09_part_elements hP.ids hP.sorted hp
  obtain ⟨pidx, required, hs, hv⟩ := hP.spec hp hselp
  obtain ⟨hwf', htwo'⟩ := C106_part_groups hwf hP hp
  obtain ⟨f, hsf, hf⟩ := isFace_part hP hp hselp hf'
  have hfun : ∀ f2, SameFace m pm selp f' f2 → f2 = f := fun f2 h => (sameFace_eq_iff hP hselp h hsf).1 rfl
  have hb : InBoundary pm.fags .reallyAll f' ↔ IsBoundaryFace m.groups f := by
    rw [C13_part_boundary_partial hP.adj hentry hP.ids hP.sorted hp hselp .reallyAll (by simp) f',
      ← C05_really_all hwf aff0 dict btags hra f hf, ← hm]
    constructor
    · rintro ⟨f2, h1, h2⟩
      rw [hfun f2 h1] at h2
      exact h2
    · intro h
      exact ⟨f, hsf, h⟩
  have hfp : (∃ aff q n nf, FacesPart pm.fags aff f' q n nf) ↔
      ∃ f2, IsNeighbor m.fags f f2 ∧ ∀ i', ¬ SameElem m pm selp f2.grp i' f2.el := by
    constructor
    · rintro ⟨aff, q, n, nf, h⟩
      obtain ⟨hne, f1, f2, selq, e2, h1, h2, h3, h4, _, h5⟩ :=
        (C12_inter_part_exact hP.adj hP.ids hP.sorted hp hselp aff f' q n nf).1 h
      rw [hfun f1 h1] at h5
      refine ⟨f2, isNeighbor_iff_via.2 ⟨aff, h5⟩, ?_⟩
      rintro i' ⟨k, e, hk, _, n', a1, a2, a3⟩
      obtain ⟨n'', b1, b2, b3⟩ := h4
      obtain rfl : e = e2 := by omega
      obtain ⟨x, hx⟩ := List.mem_iff_getElem?.1 hselp
      obtain ⟨y, hy⟩ := List.mem_iff_getElem?.1 h2
      obtain rfl := hv.disjoint x y _ _ e hx hy (List.mem_of_getElem? hk) (List.mem_of_getElem? h3)
      rw [hx] at hy
      exact hne (Prod.mk.inj (Option.some.inj hy)).1.symm
    · rintro ⟨f2, h1, h2⟩
      obtain ⟨aff, h1⟩ := isNeighbor_iff_via.1 h1
      have hf2 : IsFace m.groups f2 := by
        obtain ⟨l, rows, a1, a2, a3⟩ := h1
        exact ((hP.adj.interior _ _ _ _ _ _ a1 a2).2 _ a3).2
      obtain ⟨grp, hg, hfa, hel⟩ := hf2
      have hgl : IsGlobalNr m.sizes f2.grp f2.el ((m.sizes.take f2.grp).sum + f2.el) :=
        ⟨grp.nelements, by rw [sizes_getElem?, hg]; rfl, hel, rfl⟩
      obtain ⟨⟨q, selq⟩, hx, he⟩ := hv.covered _ (((C01_numbering_bijective m.sizes _).1).2 ⟨_, _, hgl⟩)
      obtain ⟨n, hn⟩ := List.mem_iff_getElem?.1 he
      refine ⟨aff, q, n, f2.face, (C12_inter_part_exact hP.adj hP.ids hP.sorted hp hselp aff f' q n f2.face).2
        ⟨?_, f, f2, selq, _, hsf, hx, hn, hgl, rfl, h1⟩⟩
      rintro rfl
      have := List.inj_on_of_nodup_map hP.ids hx hselp rfl
      obtain rfl := (Prod.mk.inj this).2
      obtain ⟨hso, _⟩ := hs.selSorted hv
      have hblock := (startOf_block (sizes := m.sizes) (g := f2.grp) hso hn).2 (by
        rw [take_succ_sum (n := grp.nelements) (by rw [sizes_getElem?, hg]; rfl)]; omega)
      exact h2 (n - startOf m.sizes selq f2.grp) ⟨n, _, hn,
        (isGlobalNr_part hso (hs.filterSpec hv) hn _).2 ⟨⟨_, hgl⟩, by omega⟩, hgl⟩
  rw [C05_really_all hwf' aff1 dict' btags' hra' f' hf', hb, hfp]
  constructor
  · constructor
    · rintro ⟨_, h⟩
      by_cases hbd : IsBoundaryFace m.groups f
      · exact Or.inl hbd
      · right
        have : ∃ f2, IsFace m.groups f2 ∧ f2 ≠ f ∧ SameVertices m.groups f f2 := by
          by_contra hc
          refine hbd ⟨hf, fun f2 h1 h2 h3 => hc ⟨f2, h1, h2, h3⟩⟩
        obtain ⟨f2, h1, h2, h3⟩ := this
        refine ⟨f2, ?_, ?_⟩
        · rw [hm, isNeighbor_computed_iff hwf htwo]
          exact ⟨hf, h1, h2.symm, h3⟩
        · intro i' hi'
          have hs2 : SameFace m pm selp ⟨f2.grp, i', f2.face⟩ f2 := ⟨rfl, rfl, hi'⟩
          exact h _ ((sameFace_isFace hP hp hselp hs2).2 h1) (fun he => h2 ((sameFace_eq_iff hP hselp hs2 hsf).1 he))
            ((sameVertices_part hP hp hselp hsf hs2).2 h3)
    · rintro (⟨_, h⟩ | ⟨f2, h1, h2⟩)
      · refine ⟨hf', ?_⟩
        intro g' hg' hne hsv
        obtain ⟨g, a1, a2⟩ := isFace_part hP hp hselp hg'
        exact h g a2 (fun he => hne ((sameFace_eq_iff hP hselp a1 hsf).2 he))
          ((sameVertices_part hP hp hselp hsf a1).1 hsv)
      · refine ⟨hf', ?_⟩
        intro g' hg' hne hsv
        obtain ⟨g, a1, a2⟩ := isFace_part hP hp hselp hg'
        rw [hm, isNeighbor_computed_iff hwf htwo] at h1
        obtain ⟨_, b2, b3, b4⟩ := h1
        have := htwo f g f2 hf a2 b2 ((sameVertices_part hP hp hselp hsf a1).1 hsv) b4
          (fun he => hne ((sameFace_eq_iff hP hselp a1 hsf).2 he.symm)) b3
        subst this
        exact h2 _ a1.2.2
  · rintro ⟨⟨_, h⟩, f2, h1, _⟩
    rw [hm, isNeighbor_computed_iff hwf htwo] at h1
    obtain ⟨_, b2, b3, b4⟩ := h1
    exact h f2 b2 b3.symm b4

end

/-! ## Examples -/

/-- A check of `AtMostTwoSides`. (Example, no code.) -/
def twoSidesCheck (groups : List (ElGroup N)) : Bool :=
  (allFaceIds groups).all fun f => (allFaceIds groups).all fun f' => (allFaceIds groups).all fun f'' =>
    !((faceVerts groups f).getD []).isPerm ((faceVerts groups f').getD []) ||
    !((faceVerts groups f).getD []).isPerm ((faceVerts groups f'').getD []) || f == f' || f == f'' || f' == f''

theorem twoSides_of_check {groups : List (ElGroup N)} (h : twoSidesCheck groups = true) : AtMostTwoSides groups := by
  intro f f' f'' h1 h2 h3 ⟨a, b, ha, hb, hab⟩ ⟨c, d, hc, hd, hcd⟩ n1 n2
  simp only [twoSidesCheck, List.all_eq_true, Bool.or_eq_true, Bool.not_eq_true', beq_iff_eq] at h
  rcases h f (mem_allFaceIds.2 h1) f' (mem_allFaceIds.2 h2) f'' (mem_allFaceIds.2 h3) with (((h | h) | h) | h) | h
  · rw [ha, hb, Option.getD_some, Option.getD_some] at h
    rw [List.isPerm_iff.2 hab] at h
    cases h
  · rw [hc, hd, Option.getD_some, Option.getD_some] at h
    rw [List.isPerm_iff.2 hcd] at h
    cases h
  · exact absurd h n1
  · exact absurd h n2
  · exact h

/-- A square made of four triangles around its centre, vertex 4; its left side has a tag. (Example, no code.) -/
def exSquareMesh : MMesh Nat Nat Unit where
  vertices := [10, 11, 12, 13, 14]
  groups := [⟨0, [[0, 1], [0, 2], [1, 2]], [[0, 1, 4], [1, 3, 4], [3, 2, 4], [2, 0, 4]], [100, 101, 102, 103]⟩]
  fags := computeFacial () [⟨0, [[0, 1], [0, 2], [1, 2]], [[0, 1, 4], [1, 3, 4], [3, 2, 4], [2, 0, 4]],
    [100, 101, 102, 103]⟩] [([0, 2], [.user 7 false])] [.user 7 false]

/-- Triangles 0 and 1 make part 5, the others part 3. (Example, no code.) -/
def exSquareParts : Parts := [(5, [0, 1]), (3, [2, 3])]

/-- Part 3: vertex 1 is not needed. (Example, no code.) -/
def exSquarePart3 : MMesh Nat Nat Unit where
  vertices := [10, 12, 13, 14]
  groups := [⟨0, [[0, 1], [0, 2], [1, 2]], [[2, 1, 3], [1, 0, 3]], [102, 103]⟩]
  fags := [[.interior 0 0 [⟨1, 1, 0, 2⟩, ⟨0, 2, 1, 1⟩] (),
    .interPart 0 (.partition 5) 5 [⟨0, 1, 1, 2⟩, ⟨1, 2, 0, 1⟩] (), .boundary 0 (.user 7 false) [⟨1, 0⟩],
    .boundary 0 .all [⟨0, 0⟩, ⟨1, 0⟩], .boundary 0 .none [], .boundary 0 .reallyAll [⟨0, 0⟩, ⟨1, 0⟩]]]

theorem exSquare_made : getMeshPart exSquareMesh exSquareParts 3 = .ok exSquarePart3 := by decide +kernel

/-- The hypotheses of C106 hold for the square and its two parts. -/
theorem exSquare_hyps : (∀ g ∈ exSquareMesh.groups, g.WF) ∧ AtMostTwoSides exSquareMesh.groups ∧
    exSquareMesh.fags = computeFacial () exSquareMesh.groups [([0, 2], [.user 7 false])] [.user 7 false] ∧
    BTag.reallyAll ∉ [BTag.user 7 false] ∧ (∀ q, BTag.partition q ∉ [BTag.user 7 false]) ∧
    (exSquareParts.map Prod.fst).Nodup ∧ ∀ p ∈ exSquareParts, p.2.Pairwise (· < ·) := by
  refine ⟨?_, twoSides_of_check (by decide +kernel), rfl, by decide, by simp, by decide, ?_⟩
  · unfold exSquareMesh ElGroup.WF
    decide
  · intro p hp
    simp only [exSquareParts, List.mem_cons, List.not_mem_nil, or_false] at hp
    rcases hp with rfl | rfl <;> decide

/-- In part 3 of the square the two triangles are neighbours, and the recomputed boundary has all the other faces: one
tagged, one not, two towards part 5. -/
example : IsNeighbor exSquarePart3.fags ⟨0, 0, 2⟩ ⟨0, 1, 1⟩ ∧
    (computeFacial () exSquarePart3.groups [] [])[0]? = some [.interior 0 0 [⟨1, 1, 0, 2⟩, ⟨0, 2, 1, 1⟩] (),
      .boundary 0 .all [⟨0, 0⟩, ⟨1, 0⟩, ⟨0, 1⟩, ⟨1, 2⟩], .boundary 0 .none [],
      .boundary 0 .reallyAll [⟨0, 0⟩, ⟨1, 0⟩, ⟨0, 1⟩, ⟨1, 2⟩]] :=
  ⟨⟨_, _, (), rfl, List.mem_cons_self, by decide⟩, by decide +kernel⟩

/-- Three segments that end in vertex 3. (Example, no code.) -/
def exStarMesh : MMesh Nat Nat Unit where
  vertices := [10, 11, 12, 13]
  groups := [⟨0, [[0], [1]], [[0, 3], [1, 3], [2, 3]], [100, 101, 102]⟩]
  fags := computeFacial () [⟨0, [[0], [1]], [[0, 3], [1, 3], [2, 3]], [100, 101, 102]⟩] [] []

/-- Its first and last segment as a part. (Example, no code.) -/
def exStarPart : MMesh Nat Nat Unit where
  vertices := [10, 12, 13]
  groups := [⟨0, [[0], [1]], [[0, 2], [1, 2]], [100, 102]⟩]
  fags := [[.interPart 0 (.partition 1) 1 [⟨0, 1, 0, 1⟩, ⟨1, 1, 0, 1⟩] (), .boundary 0 .all [⟨0, 0⟩, ⟨1, 0⟩],
    .boundary 0 .none [], .boundary 0 .reallyAll [⟨0, 0⟩, ⟨1, 0⟩]]]

/-- C106 fails without the hypothesis on faces with the same vertices: three segments end in the same vertex; the part
made of the first and the last of them has no neighbours, but recomputing its adjacency makes them neighbours. -/
theorem C106_three_sides_counterexample :
    getMeshPart exStarMesh [(0, [0, 2]), (1, [1])] 0 = .ok exStarPart ∧
      ¬ IsNeighbor exStarPart.fags ⟨0, 0, 1⟩ ⟨0, 1, 1⟩ ∧
      IsNeighbor (computeFacial () exStarPart.groups [] []) ⟨0, 0, 1⟩ ⟨0, 1, 1⟩ := by
  refine ⟨by decide +kernel, ?_, ?_⟩
  · rintro ⟨l, rows, aff, hl, hm, _⟩
    simp only [exStarPart, List.getElem?_cons_zero, Option.some.injEq] at hl
    subst hl
    simp at hm
  · rw [isNeighbor_computeFacial (by unfold exStarPart ElGroup.WF; decide)]
    decide +kernel

end Meshmode
