import Verif.Connection.ComputedParts
import Verif.Mesh.MergeProps

/-!
# Partitioning a merged mesh by origin: property C107

`merge_disjoint_meshes` followed by `partition_mesh` with one part for each mesh merged gives the meshes back: the same
elements in the same order, with the same nodes and vertices, the same neighbours and the same boundary, and nothing
between the parts.
-/
namespace Meshmode

variable {N P A : Type}

/-! ## Specification -/

/-- One part for each mesh merged, number `k` of which has the elements of mesh `k`.
(Specification or proof vocabulary, no code.) -/
def originParts (ms : List (FMesh N P A)) : Parts :=
  (ms.map FMesh.size).zipIdx.map fun nk =>
    (nk.2, (List.range nk.1).map (((ms.map FMesh.size).take nk.2).sum + ·))

/-- Faces of two lists of groups with the same element number (across groups) and face number.
(Specification or proof vocabulary, no code.) -/
def SameNrFace (gs' gs : List (ElGroup N)) (f' f : FaceId) : Prop :=
  f'.face = f.face ∧ ∃ e, IsGlobalNr (gs'.map ElGroup.nelements) f'.grp f'.el e ∧
    IsGlobalNr (gs.map ElGroup.nelements) f.grp f.el e

/-! ## The parts -/

theorem originParts_getElem? (ms : List (FMesh N P A)) (k : Nat) : (originParts ms)[k]? = ms[k]?.map fun m =>
    (k, (List.range m.size).map (((ms.map FMesh.size).take k).sum + ·)) := by
  unfold originParts
  simp only [List.getElem?_map, List.getElem?_zipIdx, Option.map_map]
  cases ms[k]? <;> simp

theorem mem_originParts {ms : List (FMesh N P A)} {x : Nat × List Nat} : x ∈ originParts ms ↔
    ∃ m, ms[x.1]? = some m ∧ x.2 = (List.range m.size).map (((ms.map FMesh.size).take x.1).sum + ·) := by
  rw [List.mem_iff_getElem?]
  constructor
  · rintro ⟨k, hk⟩
    rw [originParts_getElem?] at hk
    obtain ⟨m, hm, rfl⟩ := Option.map_eq_some_iff.1 hk
    exact ⟨m, hm, rfl⟩
  · rintro ⟨m, hm, h2⟩
    refine ⟨x.1, ?_⟩
    rw [originParts_getElem?, hm, Option.map_some, ← h2]

theorem originParts_elem {ms : List (FMesh N P A)} {k : Nat} {sel : List Nat} (h : (k, sel) ∈ originParts ms) (e E : Nat) :
    sel[e]? = some E ↔ MergedElem ms k e E := by
  obtain ⟨m, hm, h2⟩ := mem_originParts.1 h
  simp only at hm h2
  subst h2
  unfold MergedElem IsGlobalNr
  simp only [List.getElem?_map, hm, Option.map_some, Option.some.injEq, exists_eq_left']
  by_cases he : e < m.size
  · rw [List.getElem?_range he]
    simp only [Option.map_some, Option.some.injEq, he, true_and]
    exact eq_comm
  · rw [List.getElem?_eq_none (by simpa using he)]
    simp [he]

theorem originParts_ids (ms : List (FMesh N P A)) : ((originParts ms).map Prod.fst).Nodup := by
  rw [List.nodup_iff_injective_getElem]
  intro i j h
  have key : ∀ (i : Nat) (hi : i < ((originParts ms).map Prod.fst).length), ((originParts ms).map Prod.fst)[i] = i := by
    intro i hi
    have h1 : ((originParts ms).map Prod.fst)[i]? = some (((originParts ms).map Prod.fst)[i]) :=
      List.getElem?_eq_getElem hi
    rw [List.getElem?_map, originParts_getElem?] at h1
    cases hm : ms[i]? with
    | none => simp [hm] at h1
    | some m =>
      rw [hm] at h1
      simpa using h1.symm
  simp only [key] at h
  exact Fin.ext h

theorem originParts_sorted (ms : List (FMesh N P A)) : ∀ p ∈ originParts ms, p.2.Pairwise (· < ·) := by
  intro p hp
  obtain ⟨m, _, h⟩ := mem_originParts.1 hp
  rw [h, List.pairwise_map]
  exact List.pairwise_lt_range.imp fun h => by omega

section
variable {ms : List (FMesh N P A)} {single : Bool} {M : FMesh N P A} {vs : List P} {fags : List (List (Fag A))}

/-- The parts by origin are a partition of the merged mesh. -/
theorem originParts_valid (hok : ∀ m ∈ ms, ∃ vs, m.OK vs) (h : mergeDisjoint ms single = .ok M) :
    ValidParts M.size (originParts ms) := by
  obtain ⟨h1, h2, _⟩ := C14_merge_elements hok h
  refine ⟨originParts_ids ms, originParts_sorted ms, ?_, ?_, ?_⟩
  · rintro ⟨k, sel⟩ hp E hE
    obtain ⟨e, he⟩ := List.mem_iff_getElem?.1 hE
    exact (h1 E).2 ⟨k, e, (originParts_elem hp e E).1 he⟩
  · intro E hE
    obtain ⟨k, e, hm⟩ := (h1 E).1 hE
    have hk : ∃ m, ms[k]? = some m := by
      obtain ⟨n, hn, _⟩ := hm
      rw [List.getElem?_map] at hn
      obtain ⟨m, hm, _⟩ := Option.map_eq_some_iff.1 hn
      exact ⟨m, hm⟩
    obtain ⟨m, hk⟩ := hk
    have hp : (k, (List.range m.size).map (((ms.map FMesh.size).take k).sum + ·)) ∈ originParts ms :=
      mem_originParts.2 ⟨m, hk, rfl⟩
    exact ⟨_, hp, List.mem_of_getElem? ((originParts_elem hp e E).2 hm)⟩
  · rintro i j ⟨k, sel⟩ ⟨k', sel'⟩ E hi hj hE hE'
    obtain ⟨e, he⟩ := List.mem_iff_getElem?.1 hE
    obtain ⟨e', he'⟩ := List.mem_iff_getElem?.1 hE'
    obtain ⟨rfl, _⟩ := h2 k e k' e' E ((originParts_elem (List.mem_of_getElem? hi) e E).1 he)
      ((originParts_elem (List.mem_of_getElem? hj) e' E).1 he')
    rw [originParts_getElem?] at hi hj
    obtain ⟨_, _, hi⟩ := Option.map_eq_some_iff.1 hi
    obtain ⟨_, _, hj⟩ := Option.map_eq_some_iff.1 hj
    exact (Prod.mk.inj hi).1.trans (Prod.mk.inj hj).1.symm

theorem mergedElem_input {k e E : Nat} (h : MergedElem ms k e E) : ∃ m, ms[k]? = some m ∧ e < m.size := by
  obtain ⟨n, hn, he, _⟩ := h
  rw [List.getElem?_map] at hn
  obtain ⟨m, hm, rfl⟩ := Option.map_eq_some_iff.1 hn
  exact ⟨m, hm, he⟩

theorem group_of_nr {gs : List (ElGroup N)} {g i e : Nat} (h : IsGlobalNr (gs.map ElGroup.nelements) g i e) :
    ∃ grp, gs[g]? = some grp ∧ i < grp.nelements := by
  obtain ⟨n, hn, hi, _⟩ := h
  rw [List.getElem?_map] at hn
  obtain ⟨grp, hg, rfl⟩ := Option.map_eq_some_iff.1 hn
  exact ⟨grp, hg, hi⟩

/-- The merged mesh has consistent groups and valid vertex numbers. -/
theorem meshOK_merged (hok : ∀ m ∈ ms, ∃ vs, m.OK vs)
    (hkind : ∀ m ∈ ms, ∀ m' ∈ ms, ∀ g ∈ m.groups, ∀ g' ∈ m'.groups, g.kind = g'.kind → g.fvi = g'.fvi)
    (h : mergeDisjoint ms single = .ok M) (hvs : M.vertices = some vs) : MeshOK (⟨vs, M.groups, fags⟩ : MMesh N P A) := by
  obtain ⟨vb, hb, hwf, he⟩ := faceEmb_merge hok hkind h
  obtain ⟨h1, h2, _, h4⟩ := C14_merge_elements hok h
  refine ⟨hwf, ?_⟩
  intro grp' hgrp' row' hrow' v hv
  obtain ⟨G, hG⟩ := List.mem_iff_getElem?.1 hgrp'
  obtain ⟨I, hI⟩ := List.mem_iff_getElem?.1 hrow'
  simp only at hG hgrp'
  have hlt : I < grp'.nelements := by
    have := (List.getElem?_eq_some_iff.1 hI).1
    rw [(hwf grp' hgrp').1] at this
    exact this
  have hnr : IsGlobalNr (M.groups.map ElGroup.nelements) G I (((M.groups.map ElGroup.nelements).take G).sum + I) :=
    ⟨grp'.nelements, by rw [List.getElem?_map, hG]; rfl, hlt, rfl⟩
  obtain ⟨k, e, hm⟩ := (h1 _).1 ((C01_numbering_bijective _ _).1.2 ⟨_, _, hnr⟩)
  obtain ⟨m, hk, hem⟩ := mergedElem_input hm
  obtain ⟨vsm, hokm⟩ := hok m (List.mem_of_getElem? hk)
  obtain ⟨g, i, hgi⟩ := (C01_numbering_bijective _ _).1.1 hem
  obtain ⟨grp, hg, hi⟩ := group_of_nr hgi
  obtain ⟨G', I', grp'', vs', a1, a2, a3, _, _, _, row, row'', b1, b2, b3⟩ := h4 k m g i e _ grp vsm hk hokm hg hgi hm
  obtain ⟨rfl, rfl⟩ := (C01_numbering_bijective _ _).2 _ _ _ _ a1 hnr
  rw [hG] at a2
  obtain rfl := Option.some.inj a2
  rw [hI] at b2
  obtain rfl := Option.some.inj b2
  rw [hvs] at a3
  obtain rfl := Option.some.inj a3
  by_contra hc
  have hnone : (none : Option P) ∈ row.map (vsm[·]?) := by
    rw [← b3]
    exact List.mem_map.2 ⟨v, hv, List.getElem?_eq_none (Nat.le_of_not_lt hc)⟩
  obtain ⟨w, hw, hw'⟩ := List.mem_map.1 hnone
  have := hokm.valid grp (List.mem_of_getElem? hg) row (List.mem_of_getElem? b1) w hw
  rw [List.getElem?_eq_getElem this] at hw'
  cases hw'

/-- The correspondence of faces in terms of element numbers. -/
theorem mergedFace_iff (hok : ∀ m ∈ ms, ∃ vs, m.OK vs) (h : mergeDisjoint ms single = .ok M)
    {k : Nat} {m : FMesh N P A} (hk : ms[k]? = some m) {f F : FaceId} {e E : Nat}
    (he : IsGlobalNr (m.groups.map ElGroup.nelements) f.grp f.el e)
    (hE : IsGlobalNr (M.groups.map ElGroup.nelements) F.grp F.el E) :
    (if single then MergedFaceSingle ms else MergedFace ms) k f F ↔ F.face = f.face ∧ MergedElem ms k e E := by
  obtain ⟨h1, h2, h3, h4⟩ := C14_merge_elements hok h
  obtain ⟨vsm, hokm⟩ := hok m (List.mem_of_getElem? hk)
  obtain ⟨grp, hg, hi⟩ := group_of_nr he
  have hem : e < m.size := (C01_numbering_bijective _ _).1.2 ⟨_, _, he⟩
  have hmE : MergedElem ms k e (((ms.map FMesh.size).take k).sum + e) :=
    ⟨m.size, by rw [List.getElem?_map, hk]; rfl, hem, rfl⟩
  have hfun : ∀ {E'}, MergedElem ms k e E' → E' = ((ms.map FMesh.size).take k).sum + e := by
    rintro E' ⟨_, _, _, rfl⟩
    rfl
  cases single with
  | true =>
    have hone := h3 rfl
    have hF0 : F.grp = 0 ∧ E = F.el := by
      obtain ⟨grp', hg', _⟩ := group_of_nr hE
      have := (List.getElem?_eq_some_iff.1 hg').1
      have h0 : F.grp = 0 := by omega
      obtain ⟨_, _, _, h5⟩ := hE
      rw [h0] at h5
      exact ⟨h0, by simpa using h5⟩
    obtain ⟨hF0, rfl⟩ := hF0
    simp only [if_true]
    unfold MergedFaceSingle
    constructor
    · rintro ⟨_, a2, m', e', a3, a4, a5⟩
      rw [hk] at a3
      obtain rfl := Option.some.inj a3
      obtain rfl : e' = e := by
        obtain ⟨_, _, _, b⟩ := a4
        obtain ⟨_, _, _, c⟩ := he
        omega
      exact ⟨a2, a5⟩
    · rintro ⟨a1, a2⟩
      exact ⟨hF0, a1, m, e, hk, he, a2⟩
  | false =>
    simp only [Bool.false_eq_true, if_false]
    unfold MergedFace
    obtain ⟨G, I, grp', vs', a1, _, _, _, _, a2, _⟩ := h4 k m f.grp f.el e _ grp vsm hk hokm hg he hmE
    obtain ⟨a2, hIi⟩ := a2 rfl
    rw [hIi] at a1
    constructor
    · rintro ⟨b1, b2, b3⟩
      refine ⟨b3, ?_⟩
      have hG : F.grp = G := by
        obtain ⟨_, _, _, c1⟩ := b1
        obtain ⟨_, _, _, c2⟩ := a2
        omega
      have hEE : E = ((ms.map FMesh.size).take k).sum + e := by
        obtain ⟨_, _, _, c1⟩ := hE
        obtain ⟨_, _, _, c2⟩ := a1
        rw [hG, b2] at c1
        omega
      rw [hEE]
      exact hmE
    · rintro ⟨b1, b2⟩
      rw [hfun b2] at hE
      obtain ⟨hGG, hel⟩ := (C01_numbering_bijective _ _).2 _ _ _ _ a1 hE
      rw [hGG] at a2
      exact ⟨a2, hel.symm, b1⟩

/-! ## C107 -/

/-- C107: the merged mesh can be partitioned by origin. -/
theorem C107_defined (hok : ∀ m ∈ ms, ∃ vs, m.OK vs)
    (hkind : ∀ m ∈ ms, ∀ m' ∈ ms, ∀ g ∈ m.groups, ∀ g' ∈ m'.groups, g.kind = g'.kind → g.fvi = g'.fvi)
    (h : mergeDisjoint ms single = .ok M) (hvs : M.vertices = some vs) {k : Nat} (hk : k < ms.length) :
    ∃ pm, getMeshPart (⟨vs, M.groups, fags⟩ : MMesh N P A) (originParts ms) k = .ok pm := by
  have hp : k ∈ (originParts ms).map Prod.fst :=
    List.mem_map.2 ⟨(k, (List.range ms[k].size).map (((ms.map FMesh.size).take k).sum + ·)),
      mem_originParts.2 ⟨_, List.getElem?_eq_getElem hk, rfl⟩, rfl⟩
  exact (C09_accepts_exactly_partitions (meshOK_merged hok hkind h hvs) (originParts_ids ms) (originParts_sorted ms)
    hp).2 (originParts_valid hok h)

/-- C107: part `k` of the merged mesh has as many elements as mesh `k`, and its element number `e` has the kind, the
nodes and the vertices of element number `e` of mesh `k`. -/
theorem C107_elements (hok : ∀ m ∈ ms, ∃ vs, m.OK vs) (h : mergeDisjoint ms single = .ok M)
    (hvs : M.vertices = some vs) {k : Nat} {pm : MMesh N P A}
    (hpm : getMeshPart (⟨vs, M.groups, fags⟩ : MMesh N P A) (originParts ms) k = .ok pm) {m : FMesh N P A}
    (hk : ms[k]? = some m) {vsm : List P} (hokm : m.OK vsm) :
    nelements pm.sizes = m.size ∧
    ∀ (g i e : Nat) grp, m.groups[g]? = some grp → IsGlobalNr (m.groups.map ElGroup.nelements) g i e →
      ∃ G i' grp', IsGlobalNr pm.sizes G i' e ∧ pm.groups[G]? = some grp' ∧ grp'.kind = grp.kind ∧
        grp'.nodes[i']? = grp.nodes[i]? ∧
        ∃ row row', grp.vertexIndices[i]? = some row ∧ grp'.vertexIndices[i']? = some row' ∧
          row'.map (pm.vertices[·]?) = row.map (vsm[·]?) := by
  obtain ⟨h1, h2, _, h4⟩ := C14_merge_elements hok h
  obtain ⟨sel, hsel, hn, _, hgr, hel⟩ := C09_part_elements (originParts_ids ms) (originParts_sorted ms) hpm
  obtain ⟨hgeo, _⟩ := C10_part_keeps_geometry (originParts_ids ms) (originParts_sorted ms) hpm hsel
  constructor
  · rw [hn]
    obtain ⟨m', hm', hs⟩ := mem_originParts.1 hsel
    simp only at hm' hs
    rw [hk] at hm'
    obtain rfl := Option.some.inj hm'
    simp [hs]
  · intro g i e grp hg hgi
    have hem : e < m.size := (C01_numbering_bijective _ _).1.2 ⟨_, _, hgi⟩
    have hmE : MergedElem ms k e (((ms.map FMesh.size).take k).sum + e) :=
      ⟨m.size, by rw [List.getElem?_map, hk]; rfl, hem, rfl⟩
    obtain ⟨G, I, grp2, vs', a1, a2, a3, a4, a5, _, row, row2, b1, b2, b3⟩ := h4 k m g i e _ grp vsm hk hokm hg hgi hmE
    rw [hvs] at a3
    obtain rfl := Option.some.inj a3
    have hse := (originParts_elem hsel e _).2 hmE
    obtain ⟨G', I', i', grp3, grp', c1, c2, c3, c4, x, c5, c6⟩ := hel e _ hse
    obtain ⟨rfl, rfl⟩ := (C01_numbering_bijective _ _).2 _ _ _ _ c1 a1
    simp only at c3
    rw [a2] at c3
    obtain rfl := Option.some.inj c3
    obtain ⟨grp4, d1, d2, _⟩ := hgr G' _ a2
    rw [c4] at d1
    obtain rfl := Option.some.inj d1
    obtain ⟨grp5, grp6, row3, row', e1, e2, e3, e4, e5, _⟩ := hgeo G' i' I' ⟨e, _, hse, c2, c1⟩
    simp only at e1 e5
    rw [a2] at e1
    obtain rfl := Option.some.inj e1
    rw [c4] at e2
    obtain rfl := Option.some.inj e2
    rw [b2] at e3
    obtain rfl := Option.some.inj e3
    refine ⟨G', i', grp', c2, c4, d2.trans a4, ?_, row, row', b1, e4, e5.trans b3⟩
    rw [c6, ← a5, c5]

theorem facial_merged {aff0 : A} (h : mergeDisjoint ms single = .ok M) (hfac : M.facial aff0 = .ok fags) :
    fags = computeFacial aff0 M.groups [] [] := by
  obtain ⟨h1, h2⟩ := C14_merge_facial_available aff0 h
  by_cases hc : ∀ m ∈ ms, m.lazy.conforming = some true ∧ m.lazy.facial = .missing
  · rw [h1 hc] at hfac
    exact (Access.ok.inj hfac).symm
  · rw [h2 hc] at hfac
    cases hfac

theorem sameFace_origin (hok : ∀ m ∈ ms, ∃ vs, m.OK vs) (h : mergeDisjoint ms single = .ok M) {k : Nat}
    {pm : MMesh N P A} {sel : List Nat} (hsel : (k, sel) ∈ originParts ms) {m : FMesh N P A} (hk : ms[k]? = some m)
    {f' f F : FaceId} (hf : IsFace m.groups f) (hs : SameFace (⟨vs, M.groups, fags⟩ : MMesh N P A) pm sel f' F) :
    (if single then MergedFaceSingle ms else MergedFace ms) k f F ↔ SameNrFace pm.groups m.groups f' f := by
  obtain ⟨a1, a2, e', E, b1, b2, b3⟩ := hs
  obtain ⟨grp, hg, _, hi⟩ := hf
  have he : IsGlobalNr (m.groups.map ElGroup.nelements) f.grp f.el (((m.groups.map ElGroup.nelements).take f.grp).sum +
    f.el) := ⟨grp.nelements, by rw [List.getElem?_map, hg]; rfl, hi, rfl⟩
  have b1' := (originParts_elem hsel e' E).1 b1
  rw [mergedFace_iff hok h hk he b3, ← a2]
  unfold SameNrFace
  constructor
  · rintro ⟨c1, c2⟩
    obtain ⟨_, hee⟩ := (C14_merge_elements hok h).2.1 _ _ _ _ _ b1' c2
    subst hee
    rw [← a1] at b2
    exact ⟨c1, _, b2, he⟩
  · rintro ⟨c1, e, c2, c3⟩
    refine ⟨c1, ?_⟩
    rw [a1] at c2
    have he' : e' = ((m.groups.map ElGroup.nelements).take f.grp).sum + f.el := by
      obtain ⟨_, _, _, d0⟩ := c3
      obtain ⟨_, _, _, d1⟩ := c2
      obtain ⟨_, _, _, d2⟩ := b2
      simp only [MMesh.sizes] at d2
      omega
    rw [← he']
    exact b1'

theorem origin_sameFace (hok : ∀ m ∈ ms, ∃ vs, m.OK vs)
    (hkind : ∀ m ∈ ms, ∀ m' ∈ ms, ∀ g ∈ m.groups, ∀ g' ∈ m'.groups, g.kind = g'.kind → g.fvi = g'.fvi)
    (h : mergeDisjoint ms single = .ok M) {k : Nat} {pm : MMesh N P A}
    (hpm : getMeshPart (⟨vs, M.groups, fags⟩ : MMesh N P A) (originParts ms) k = .ok pm)
    {sel : List Nat} (hsel : (k, sel) ∈ originParts ms) {m : FMesh N P A} (hk : ms[k]? = some m)
    {f' f : FaceId} (hf : IsFace m.groups f) (hs : SameNrFace pm.groups m.groups f' f) : ∃ F,
      (if single then MergedFaceSingle ms else MergedFace ms) k f F ∧
      SameFace (⟨vs, M.groups, fags⟩ : MMesh N P A) pm sel f' F := by
  obtain ⟨vb, hb, hwf, hemb⟩ := faceEmb_merge hok hkind h
  have hgss : (ms.map FMesh.groups)[k]? = some m.groups := by rw [List.getElem?_map, hk]; rfl
  obtain ⟨d1, e, d2, d3⟩ := hs
  obtain ⟨F, e1, ⟨grp, hg, _, hi⟩⟩ := hemb.total k _ f hgss hf
  have hE : IsGlobalNr (M.groups.map ElGroup.nelements) F.grp F.el
    (((M.groups.map ElGroup.nelements).take F.grp).sum + F.el) :=
    ⟨grp.nelements, by rw [List.getElem?_map, hg]; rfl, hi, rfl⟩
  obtain ⟨e2, e3⟩ := (mergedFace_iff hok h hk d3 hE).1 e1
  have hse := (originParts_elem hsel e _).2 e3
  obtain ⟨sel', hsel', _, _, _, hel⟩ := C09_part_elements (originParts_ids ms) (originParts_sorted ms) hpm
  obtain rfl : sel' = sel := by
    have := List.inj_on_of_nodup_map (originParts_ids ms) hsel' hsel rfl
    exact (Prod.mk.inj this).2
  obtain ⟨G, I, i', _, _, g1, g2, _⟩ := hel e _ hse
  obtain ⟨g3, g4⟩ := (C01_numbering_bijective _ _).2 _ _ _ _ g1 hE
  obtain ⟨g5, g6⟩ := (C01_numbering_bijective _ _).2 _ _ _ _ g2 d2
  refine ⟨F, e1, by rw [← g5, g3], by rw [d1, e2], e, _, hse, ?_, hE⟩
  rw [← g3, g5]
  exact d2

/-- The mesh from which a face of the merged mesh in a part is, is that of the part. -/
theorem origin_unique (hok : ∀ m ∈ ms, ∃ vs, m.OK vs) (h : mergeDisjoint ms single = .ok M) {k k' : Nat}
    {pm : MMesh N P A} {sel : List Nat} (hsel : (k, sel) ∈ originParts ms) {m' : FMesh N P A} (hk' : ms[k']? = some m')
    {f' f F : FaceId} (hf : IsFace m'.groups f) (hs : SameFace (⟨vs, M.groups, fags⟩ : MMesh N P A) pm sel f' F)
    (hm : (if single then MergedFaceSingle ms else MergedFace ms) k' f F) : k' = k := by
  obtain ⟨_, _, e', E, d1, d2, d3⟩ := hs
  obtain ⟨grp, hg, _, hi⟩ := hf
  have he : IsGlobalNr (m'.groups.map ElGroup.nelements) f.grp f.el
    (((m'.groups.map ElGroup.nelements).take f.grp).sum + f.el) :=
    ⟨grp.nelements, by rw [List.getElem?_map, hg]; rfl, hi, rfl⟩
  have := ((mergedFace_iff hok h hk' he d3).1 hm).2
  exact ((C14_merge_elements hok h).2.1 _ _ _ _ _ this ((originParts_elem hsel e' E).1 d1)).1

/-- C107: two faces of part `k` are neighbours exactly if the faces of mesh `k` with the same element and face numbers
are. -/
theorem C107_neighbours (hok : ∀ m ∈ ms, ∃ vs, m.OK vs)
    (hkind : ∀ m ∈ ms, ∀ m' ∈ ms, ∀ g ∈ m.groups, ∀ g' ∈ m'.groups, g.kind = g'.kind → g.fvi = g'.fvi)
    (htwo : ∀ m ∈ ms, AtMostTwoSides m.groups) (h : mergeDisjoint ms single = .ok M) {aff0 : A}
    (hfac : M.facial aff0 = .ok fags) {k : Nat} {pm : MMesh N P A}
    (hpm : getMeshPart (⟨vs, M.groups, fags⟩ : MMesh N P A) (originParts ms) k = .ok pm) {m : FMesh N P A}
    (hk : ms[k]? = some m) (f1' f2' : FaceId) :
    IsNeighbor pm.fags f1' f2' ↔ ∃ f1 f2, SameNrFace pm.groups m.groups f1' f1 ∧
      SameNrFace pm.groups m.groups f2' f2 ∧ IsNeighbor (computeFacial aff0 m.groups [] []) f1 f2 := by
  obtain rfl := facial_merged h hfac
  obtain ⟨vb, hb, hwf, hemb⟩ := faceEmb_merge hok hkind h
  have hadj : AdjOK (⟨vs, M.groups, computeFacial aff0 M.groups [] []⟩ : MMesh N P A) := C106_adjacency_valid hwf rfl
  obtain ⟨sel, hsel, _⟩ := C09_part_elements (originParts_ids ms) (originParts_sorted ms) hpm
  obtain ⟨hnb, _⟩ := C14_merge_facial_partial hok hkind htwo aff0 h
  obtain ⟨vsm, hokm⟩ := hok m (List.mem_of_getElem? hk)
  have h11 : IsNeighbor pm.fags f1' f2' ↔ ∃ F1 F2,
      SameFace (⟨vs, M.groups, computeFacial aff0 M.groups [] []⟩ : MMesh N P A) pm sel f1' F1 ∧
      SameFace (⟨vs, M.groups, computeFacial aff0 M.groups [] []⟩ : MMesh N P A) pm sel f2' F2 ∧
      IsNeighbor (computeFacial aff0 M.groups [] []) F1 F2 := by
    rw [isNeighbor_iff_via]
    constructor
    · rintro ⟨aff, hv⟩
      obtain ⟨F1, F2, a1, a2, a3⟩ := (C11_part_internal_connectivity hadj (originParts_ids ms) (originParts_sorted ms)
        hpm hsel aff f1' f2').1 hv
      exact ⟨F1, F2, a1, a2, isNeighbor_iff_via.2 ⟨aff, a3⟩⟩
    · rintro ⟨F1, F2, a1, a2, a3⟩
      obtain ⟨aff, a3⟩ := isNeighbor_iff_via.1 a3
      exact ⟨aff, (C11_part_internal_connectivity hadj (originParts_ids ms) (originParts_sorted ms)
        hpm hsel aff f1' f2').2 ⟨F1, F2, a1, a2, a3⟩⟩
  rw [h11]
  constructor
  · rintro ⟨F1, F2, a1, a2, a3⟩
    obtain ⟨k', m', f1, f2, b1, b2, b3, b4⟩ := (hnb F1 F2).1 a3
    have hwf' : ∀ g ∈ m'.groups, g.WF := by
      obtain ⟨_, ho⟩ := hok m' (List.mem_of_getElem? b1)
      exact ho.wf
    obtain ⟨_, _, c1, c2, _⟩ := C02_facial_adjacency_symmetric hwf' aff0 [] [] _ _ b4
    obtain rfl := origin_unique hok h hsel b1 c1 a1 b2
    rw [hk] at b1
    obtain rfl := Option.some.inj b1
    exact ⟨f1, f2, (sameFace_origin hok h hsel hk c1 a1).1 b2, (sameFace_origin hok h hsel hk c2 a2).1 b3, b4⟩
  · rintro ⟨f1, f2, a1, a2, a3⟩
    obtain ⟨_, _, c1, c2, _⟩ := C02_facial_adjacency_symmetric hokm.wf aff0 [] [] _ _ a3
    obtain ⟨F1, d1, e1⟩ := origin_sameFace hok hkind h hpm hsel hk c1 a1
    obtain ⟨F2, d2, e2⟩ := origin_sameFace hok hkind h hpm hsel hk c2 a2
    exact ⟨F1, F2, e1, e2, (hnb F1 F2).2 ⟨k, m, f1, f2, hk, d1, d2, a3⟩⟩

/-- C107: a face of part `k` is in `BTAG_REALLY_ALL` exactly if the face of mesh `k` with the same element and face
numbers is. -/
theorem C107_boundary (hok : ∀ m ∈ ms, ∃ vs, m.OK vs)
    (hkind : ∀ m ∈ ms, ∀ m' ∈ ms, ∀ g ∈ m.groups, ∀ g' ∈ m'.groups, g.kind = g'.kind → g.fvi = g'.fvi)
    (htwo : ∀ m ∈ ms, AtMostTwoSides m.groups) (h : mergeDisjoint ms single = .ok M) {aff0 : A}
    (hfac : M.facial aff0 = .ok fags) {k : Nat} {pm : MMesh N P A}
    (hpm : getMeshPart (⟨vs, M.groups, fags⟩ : MMesh N P A) (originParts ms) k = .ok pm) {m : FMesh N P A}
    (hk : ms[k]? = some m) (f' : FaceId) :
    InBoundary pm.fags .reallyAll f' ↔ ∃ f, SameNrFace pm.groups m.groups f' f ∧
      InBoundary (computeFacial aff0 m.groups [] []) .reallyAll f := by
  obtain rfl := facial_merged h hfac
  obtain ⟨vb, hb, hwf, hemb⟩ := faceEmb_merge hok hkind h
  have hadj : AdjOK (⟨vs, M.groups, computeFacial aff0 M.groups [] []⟩ : MMesh N P A) := C106_adjacency_valid hwf rfl
  obtain ⟨sel, hsel, _⟩ := C09_part_elements (originParts_ids ms) (originParts_sorted ms) hpm
  obtain ⟨_, hbd⟩ := C14_merge_facial_partial hok hkind htwo aff0 h
  obtain ⟨vsm, hokm⟩ := hok m (List.mem_of_getElem? hk)
  have hface : ∀ f, InBoundary (computeFacial aff0 m.groups [] []) .reallyAll f → IsFace m.groups f := fun f hf =>
    (C106_adjacency_valid (m := (⟨vs, m.groups, computeFacial aff0 m.groups [] []⟩ : MMesh N P A)) hokm.wf rfl).boundary
      _ _ hf
  rw [C13_part_boundary_partial hadj (computed_entries rfl) (originParts_ids ms) (originParts_sorted ms) hpm hsel
    .reallyAll (by simp) f']
  constructor
  · rintro ⟨F, h1, h2⟩
    obtain ⟨k', gs, f, a1, a2, a3⟩ := hemb.onto F (hadj.boundary _ _ h2)
    rw [List.getElem?_map] at a1
    obtain ⟨m', hk', rfl⟩ := Option.map_eq_some_iff.1 a1
    obtain rfl := origin_unique hok h hsel hk' a2 h1 a3
    rw [hk] at hk'
    obtain rfl := Option.some.inj hk'
    exact ⟨f, (sameFace_origin hok h hsel hk a2 h1).1 a3, (hbd _ _ _ _ hk a2 a3).1 h2⟩
  · rintro ⟨f, h1, h2⟩
    obtain ⟨F, a1, a2⟩ := origin_sameFace hok hkind h hpm hsel hk (hface f h2) h1
    exact ⟨F, a2, (hbd _ _ _ _ hk (hface f h2) a1).2 h2⟩

/-- C107: no face of a part faces another part. -/
theorem C107_separate (hok : ∀ m ∈ ms, ∃ vs, m.OK vs)
    (hkind : ∀ m ∈ ms, ∀ m' ∈ ms, ∀ g ∈ m.groups, ∀ g' ∈ m'.groups, g.kind = g'.kind → g.fvi = g'.fvi)
    (htwo : ∀ m ∈ ms, AtMostTwoSides m.groups) (h : mergeDisjoint ms single = .ok M) {aff0 : A}
    (hfac : M.facial aff0 = .ok fags) {k : Nat} {pm : MMesh N P A}
    (hpm : getMeshPart (⟨vs, M.groups, fags⟩ : MMesh N P A) (originParts ms) k = .ok pm) (aff : A) (f' : FaceId)
    (q n nf : Nat) : ¬ FacesPart pm.fags aff f' q n nf := by
  obtain rfl := facial_merged h hfac
  obtain ⟨vb, hb, hwf, hemb⟩ := faceEmb_merge hok hkind h
  have hadj : AdjOK (⟨vs, M.groups, computeFacial aff0 M.groups [] []⟩ : MMesh N P A) := C106_adjacency_valid hwf rfl
  obtain ⟨sel, hsel, _⟩ := C09_part_elements (originParts_ids ms) (originParts_sorted ms) hpm
  obtain ⟨hnb, _⟩ := C14_merge_facial_partial hok hkind htwo aff0 h
  rw [C12_inter_part_exact hadj (originParts_ids ms) (originParts_sorted ms) hpm hsel]
  rintro ⟨hne, F1, F2, selq, E2, h1, h2, h3, h4, _, h5⟩
  obtain ⟨k', m', f1, f2, b1, b2, b3, b4⟩ := (hnb F1 F2).1 (isNeighbor_iff_via.2 ⟨aff, h5⟩)
  have hwf' : ∀ g ∈ m'.groups, g.WF := by
    obtain ⟨_, ho⟩ := hok m' (List.mem_of_getElem? b1)
    exact ho.wf
  obtain ⟨_, _, c1, ⟨grp, hg, _, hi⟩, _⟩ := C02_facial_adjacency_symmetric hwf' aff0 [] [] _ _ b4
  obtain rfl := origin_unique hok h hsel b1 c1 h1 b2
  have he : IsGlobalNr (m'.groups.map ElGroup.nelements) f2.grp f2.el
    (((m'.groups.map ElGroup.nelements).take f2.grp).sum + f2.el) :=
    ⟨grp.nelements, by rw [List.getElem?_map, hg]; rfl, hi, rfl⟩
  have h6 := ((mergedFace_iff hok h b1 he h4).1 b3).2
  exact hne ((C14_merge_elements hok h).2.1 _ _ _ _ _ ((originParts_elem h2 n E2).1 h3) h6).1

end

/-! ## Example -/

/-- The hypotheses of C107 hold for the two meshes of C14's example, for both values of `single_group`; the parts have
two elements each. -/
example (single : Bool) : ∃ M vs fags pm, mergeDisjoint [exMergeA, exMergeB] single = .ok M ∧ M.vertices = some vs ∧
    M.facial 0 = .ok fags ∧
    getMeshPart (⟨vs, M.groups, fags⟩ : MMesh _ _ Nat) (originParts [exMergeA, exMergeB]) 1 = .ok pm ∧
    nelements pm.sizes = 2 ∧ pm.vertices = [(5, 5), (6, 5), (5, 6), (6, 6)] ∧
    originParts [exMergeA, exMergeB] = [(0, [0, 1]), (1, [2, 3])] := by
  have hp : originParts [exMergeA, exMergeB] = [(0, [0, 1]), (1, [2, 3])] := by decide
  cases single
  all_goals
    refine ⟨_, _, _, _, rfl, rfl, rfl, rfl, ?_, ?_, hp⟩ <;> decide +kernel

end Meshmode
