import Verif.Mesh.Merge

/-!
# Merging disjoint meshes: properties (C14)
-/
namespace Meshmode

variable {N P A : Type}

/-! ## Lists of lists -/

theorem isGlobalNr_zero {n : Nat} {rest : List Nat} {i e : Nat} :
    IsGlobalNr (n :: rest) 0 i e ↔ i < n ∧ e = i := by
  simp [IsGlobalNr]

theorem isGlobalNr_succ {n : Nat} {rest : List Nat} {k i e : Nat} :
    IsGlobalNr (n :: rest) (k + 1) i e ↔ ∃ e', IsGlobalNr rest k i e' ∧ e = n + e' := by
  simp only [IsGlobalNr, List.getElem?_cons_succ, List.take_succ_cons, List.sum_cons]
  constructor
  · rintro ⟨m, h1, h2, rfl⟩; exact ⟨_, ⟨m, h1, h2, rfl⟩, by omega⟩
  · rintro ⟨e', ⟨m, h1, h2, rfl⟩, rfl⟩; exact ⟨m, h1, h2, by omega⟩

/-- Position `e` of the concatenation is position `i` of list `k`. -/
theorem flatten_getElem? {α : Type} {L : List (List α)} {k i e : Nat}
    (h : IsGlobalNr (L.map List.length) k i e) : L.flatten[e]? = L[k]?.bind (·[i]?) := by
  induction L generalizing k e with
  | nil => simp [IsGlobalNr] at h
  | cons l L ih =>
    cases k with
    | zero =>
      rw [List.map_cons, isGlobalNr_zero] at h
      obtain ⟨h1, rfl⟩ := h
      simp [List.getElem?_append_left h1]
    | succ k =>
      rw [List.map_cons, isGlobalNr_succ] at h
      obtain ⟨e', h1, rfl⟩ := h
      rw [List.flatten_cons, List.getElem?_append_right (by omega)]
      simpa using ih h1

theorem flatten_take {α : Type} {L : List (List α)} {k i e : Nat} {l : List α}
    (hl : L[k]? = some l) (h : IsGlobalNr (L.map List.length) k i e) :
    L.flatten.take e = (L.take k).flatten ++ l.take i := by
  induction L generalizing k e with
  | nil => simp at hl
  | cons l' L ih =>
    cases k with
    | zero =>
      rw [List.map_cons, isGlobalNr_zero] at h
      obtain ⟨h1, rfl⟩ := h
      simp only [List.getElem?_cons_zero, Option.some.injEq] at hl
      subst hl
      simp [List.take_append_of_le_length (Nat.le_of_lt h1)]
    | succ k =>
      rw [List.map_cons, isGlobalNr_succ] at h
      obtain ⟨e', h1, rfl⟩ := h
      simp only [List.getElem?_cons_succ] at hl
      rw [List.flatten_cons, List.take_length_add_append, ih hl h1]
      simp

/-- Numbering the elements of a concatenation of group lists: first the lists, then within. -/
theorem isGlobalNr_flatten {L : List (List Nat)} {k g G i E : Nat} {l : List Nat}
    (hl : L[k]? = some l) (hG : IsGlobalNr (L.map List.length) k g G) :
    IsGlobalNr L.flatten G i E ↔ ∃ e, IsGlobalNr l g i e ∧ IsGlobalNr (L.map List.sum) k e E := by
  have h1 : L.flatten[G]? = l[g]? := by rw [flatten_getElem? hG, hl]; rfl
  have h2 := flatten_take hl hG
  have h3 : (L.flatten.take G).sum = ((L.map List.sum).take k).sum + (l.take g).sum := by
    rw [h2, List.sum_append, List.sum_flatten, List.map_take]
  constructor
  · rintro ⟨n, hn, hi, rfl⟩
    rw [h1] at hn
    have hlt : (l.take g).sum + i < l.sum := by
      obtain ⟨hg, rfl⟩ := List.getElem?_eq_some_iff.1 hn
      exact take_sum_add_lt l g i hg hi
    exact ⟨_, ⟨n, hn, hi, rfl⟩, l.sum, by simp [hl], hlt, by omega⟩
  · rintro ⟨e, ⟨n, hn, hi, rfl⟩, m, _, _, rfl⟩
    exact ⟨n, by rw [h1, hn], hi, by omega⟩

theorem isGlobalNr_lt {sizes : List Nat} {g i e : Nat} (h : IsGlobalNr sizes g i e) :
    g < sizes.length := by
  obtain ⟨n, hn, _⟩ := h
  exact (List.getElem?_eq_some_iff.1 hn).1

theorem vertBases_eq (b : Nat) (ns : List Nat) (k : Nat) :
    (vertBases b ns)[k]? = if k < ns.length then some (b + (ns.take k).sum) else none := by
  induction ns generalizing b k with
  | nil => simp [vertBases]
  | cons n ns ih =>
    cases k with
    | zero => simp [vertBases]
    | succ k =>
      simp only [vertBases, List.getElem?_cons_succ, ih, List.length_cons, List.take_succ_cons,
        List.sum_cons]
      by_cases h : k < ns.length
      · simp [h, Nat.add_assoc]
      · simp [h]

theorem length_vertBases (b : Nat) (ns : List Nat) : (vertBases b ns).length = ns.length := by
  induction ns generalizing b with
  | nil => rfl
  | cons n ns ih => simp [vertBases, ih]

/-! ## Merged groups -/

theorem nelements_shiftGroup (b : Nat) (g : ElGroup N) :
    (shiftGroup b g).nelements = g.nelements := rfl

theorem mergeGroups_eq (gss : List (List (ElGroup N))) (bases : List Nat) :
    mergeGroups gss bases =
      ((gss.zip bases).map fun mb => mb.1.map (shiftGroup mb.2)).flatten := by
  rw [mergeGroups, List.flatMap_def]

theorem merge_lengths {gss : List (List (ElGroup N))} {bases : List Nat}
    (h : bases.length = gss.length) :
    ((gss.zip bases).map fun mb => mb.1.map (shiftGroup mb.2)).map List.length =
      gss.map List.length := by
  rw [List.map_map]
  apply List.ext_getElem?
  intro i
  simp only [List.getElem?_map, Function.comp_def, List.length_map]
  by_cases hi : i < gss.length
  · have hb : i < bases.length := by omega
    have : (gss.zip bases)[i]? = some (gss[i], bases[i]) := by
      rw [List.getElem?_zip_eq_some]
      exact ⟨List.getElem?_eq_getElem hi, List.getElem?_eq_getElem hb⟩
    simp [this, List.getElem?_eq_getElem hi]
  · rw [List.getElem?_eq_none (by simp; omega), List.getElem?_eq_none (by omega)]; rfl

/-- Group `g` of list `k` in the merged group list. -/
theorem mergeGroups_getElem? {gss : List (List (ElGroup N))} {bases : List Nat}
    (h : bases.length = gss.length) {k g G b : Nat} {gs : List (ElGroup N)}
    (hk : gss[k]? = some gs) (hb : bases[k]? = some b)
    (hG : IsGlobalNr (gss.map List.length) k g G) :
    (mergeGroups gss bases)[G]? = gs[g]?.map (shiftGroup b) := by
  rw [mergeGroups_eq, flatten_getElem? (k := k) (i := g) (by rw [merge_lengths h]; exact hG)]
  have : (gss.zip bases)[k]? = some (gs, b) := by
    rw [List.getElem?_zip_eq_some]; exact ⟨hk, hb⟩
  simp [List.getElem?_map, this]

/-- Every merged group comes from some input. -/
theorem mergeGroups_origin {gss : List (List (ElGroup N))} {bases : List Nat}
    (h : bases.length = gss.length) {G : Nat} {grp' : ElGroup N}
    (hG : (mergeGroups gss bases)[G]? = some grp') :
    ∃ k g gs b grp, gss[k]? = some gs ∧ bases[k]? = some b ∧ gs[g]? = some grp ∧
      IsGlobalNr (gss.map List.length) k g G ∧ grp' = shiftGroup b grp := by
  have hlt : G < (mergeGroups gss bases).length := (List.getElem?_eq_some_iff.1 hG).1
  rw [mergeGroups_eq, List.length_flatten, merge_lengths h] at hlt
  obtain ⟨k, g, hkg⟩ := (C01_numbering_bijective (gss.map List.length) G).1.1 hlt
  have hk := isGlobalNr_lt hkg
  rw [List.length_map] at hk
  have hgs := List.getElem?_eq_getElem hk
  have hb := List.getElem?_eq_getElem (l := bases) (i := k) (by omega)
  rw [mergeGroups_getElem? h hgs hb hkg] at hG
  obtain ⟨grp, hg, rfl⟩ := Option.map_eq_some_iff.1 hG
  exact ⟨k, g, _, _, grp, hgs, hb, hg, hkg, rfl⟩

theorem sizes_mergeGroups {gss : List (List (ElGroup N))} {bases : List Nat}
    (h : bases.length = gss.length) :
    (mergeGroups gss bases).map ElGroup.nelements =
      (gss.map fun gs => gs.map ElGroup.nelements).flatten := by
  rw [mergeGroups_eq, List.map_flatten, List.map_map]
  congr 1
  apply List.ext_getElem?
  intro i
  simp only [List.getElem?_map, Function.comp_def, List.map_map]
  by_cases hi : i < gss.length
  · have hb : i < bases.length := by omega
    have : (gss.zip bases)[i]? = some (gss[i], bases[i]) := by
      rw [List.getElem?_zip_eq_some]
      exact ⟨List.getElem?_eq_getElem hi, List.getElem?_eq_getElem hb⟩
    simp [this, List.getElem?_eq_getElem hi, nelements_shiftGroup]
  · rw [List.getElem?_eq_none (by simp; omega), List.getElem?_eq_none (by omega)]; rfl

/-- Mesh-wide element numbers after merging. -/
theorem isGlobalNr_merge {gss : List (List (ElGroup N))} {bases : List Nat}
    (h : bases.length = gss.length) {k g G i E : Nat} {gs : List (ElGroup N)}
    (hk : gss[k]? = some gs) (hG : IsGlobalNr (gss.map List.length) k g G) :
    IsGlobalNr ((mergeGroups gss bases).map ElGroup.nelements) G i E ↔
      ∃ e, IsGlobalNr (gs.map ElGroup.nelements) g i e ∧
        IsGlobalNr (gss.map fun gs => nelements (gs.map ElGroup.nelements)) k e E := by
  rw [sizes_mergeGroups h, isGlobalNr_flatten (l := gs.map ElGroup.nelements) (k := k) (g := g)]
  · rw [List.map_map]; rfl
  · simp [hk]
  · rw [List.map_map]
    have : (List.length ∘ fun gs : List (ElGroup N) => gs.map ElGroup.nelements) = List.length := by
      funext x; simp
    rw [this]; exact hG

theorem mapM_map_getElem? (f : Nat → Nat) (row ref : List Nat) :
    ref.mapM (fun k => (row.map f)[k]?) = (ref.mapM (fun k => row[k]?)).map (List.map f) := by
  induction ref with
  | nil => rfl
  | cons a ref ih =>
    rw [List.mapM_cons, List.mapM_cons, ih, List.getElem?_map]
    cases row[a]? with
    | none => rfl
    | some v => cases ref.mapM (fun k => row[k]?) <;> rfl

theorem faceVerts_shift {gs gs' : List (ElGroup N)} {f F : FaceId} {g : ElGroup N} {b : Nat}
    (hg : gs[f.grp]? = some g) (hG : gs'[F.grp]? = some (shiftGroup b g)) (hel : F.el = f.el)
    (hface : F.face = f.face) :
    faceVerts gs' F = (faceVerts gs f).map (List.map (· + b)) := by
  unfold faceVerts
  rw [hg, hG, hel, hface]
  simp only [Option.bind_eq_bind, Option.bind_some, shiftGroup, List.getElem?_map]
  cases g.fvi[f.face]? with
  | none => rfl
  | some ref =>
    simp only [Option.bind_some]
    cases g.vertexIndices[f.el]? with
    | none => rfl
    | some row =>
      simp only [Option.bind_some, Option.map_some]
      exact mapM_map_getElem? _ _ _

/-! ## Faces under merging -/

/-- `emb k f F`: face `F` of the merged groups is face `f` of input `k`, whose vertex numbers are
shifted by `vb k`. (Specification or proof vocabulary, no code.) -/
structure FaceEmb (gss : List (List (ElGroup N))) (groups' : List (ElGroup N))
    (emb : Nat → FaceId → FaceId → Prop) (vb : Nat → Nat) : Prop where
  total : ∀ (k : Nat) gs f, gss[k]? = some gs → IsFace gs f → ∃ F, emb k f F ∧ IsFace groups' F
  onto : ∀ F, IsFace groups' F → ∃ k gs f, gss[k]? = some gs ∧ IsFace gs f ∧ emb k f F
  inj : ∀ k f k' f' F, emb k f F → emb k' f' F → k = k' ∧ f = f'
  func : ∀ k f F F', emb k f F → emb k f F' → F = F'
  verts : ∀ (k : Nat) gs f F, gss[k]? = some gs → IsFace gs f → emb k f F →
    faceVerts groups' F = (faceVerts gs f).map (List.map (· + vb k))

/-- Inputs' vertex numbers, shifted, stay apart. (Specification or proof vocabulary, no code.) -/
structure BasesOK (gss : List (List (ElGroup N))) (vb : Nat → Nat) : Prop where
  apart : ∀ (k k' : Nat) gs gs' g g' row row' v v', gss[k]? = some gs → gss[k']? = some gs' →
    g ∈ gs → g' ∈ gs' → row ∈ g.vertexIndices → row' ∈ g'.vertexIndices → v ∈ row → v' ∈ row' →
    v + vb k = v' + vb k' → k = k' ∧ v = v'

theorem mem_of_mapM_getElem? {row ref vs : List Nat} (h : ref.mapM (fun k => row[k]?) = some vs) :
    vs.length = ref.length ∧ ∀ v ∈ vs, v ∈ row := by
  obtain ⟨h1, h2⟩ := mapM_getElem?_some h
  refine ⟨h1, fun v hv => ?_⟩
  obtain ⟨i, hi⟩ := List.mem_iff_getElem?.1 hv
  have hlt : i < ref.length := by rw [← h1]; exact (List.getElem?_eq_some_iff.1 hi).1
  obtain ⟨b, hb, hr⟩ := h2 i _ (List.getElem?_eq_getElem hlt)
  rw [hi] at hb; cases hb
  exact List.mem_of_getElem? hr

theorem faceVerts_mem {gs : List (ElGroup N)} {f : FaceId} {vs : List Nat}
    (hne : ∀ g ∈ gs, ∀ ref ∈ g.fvi, ref ≠ []) (h : faceVerts gs f = some vs) :
    vs ≠ [] ∧ ∃ g ∈ gs, ∃ row ∈ g.vertexIndices, ∀ v ∈ vs, v ∈ row := by
  unfold faceVerts at h
  obtain ⟨g, hg, h1⟩ := Option.bind_eq_some_iff.1 h
  obtain ⟨ref, href, h2⟩ := Option.bind_eq_some_iff.1 h1
  obtain ⟨row, hrow, h3⟩ := Option.bind_eq_some_iff.1 h2
  obtain ⟨h4, h5⟩ := mem_of_mapM_getElem? h3
  refine ⟨?_, g, List.mem_of_getElem? hg, row, List.mem_of_getElem? hrow, h5⟩
  intro hc
  rw [hc] at h4
  exact hne g (List.mem_of_getElem? hg) ref (List.mem_of_getElem? href)
    (List.eq_nil_of_length_eq_zero h4.symm)

theorem sameVertices_emb {gss : List (List (ElGroup N))} {groups' : List (ElGroup N)}
    {emb : Nat → FaceId → FaceId → Prop} {vb : Nat → Nat} (he : FaceEmb gss groups' emb vb)
    (hb : BasesOK gss vb) (hne : ∀ gs ∈ gss, ∀ g ∈ gs, ∀ ref ∈ g.fvi, ref ≠ [])
    {k k' : Nat} {gs gs' : List (ElGroup N)} {f f' F F' : FaceId}
    (hk : gss[k]? = some gs) (hk' : gss[k']? = some gs') (hf : IsFace gs f) (hf' : IsFace gs' f')
    (hF : emb k f F) (hF' : emb k' f' F') :
    SameVertices groups' F F' ↔ k = k' ∧ SameVertices gs f f' := by
  constructor
  · rintro ⟨vs, vs', h1, h2, hp⟩
    rw [he.verts k gs f F hk hf hF] at h1
    rw [he.verts k' gs' f' F' hk' hf' hF'] at h2
    obtain ⟨us, hus, rfl⟩ := Option.map_eq_some_iff.1 h1
    obtain ⟨us', hus', rfl⟩ := Option.map_eq_some_iff.1 h2
    obtain ⟨n1, g, hg, row, hrow, hm⟩ := faceVerts_mem (hne gs (List.mem_of_getElem? hk)) hus
    obtain ⟨n1', g', hg', row', hrow', hm'⟩ :=
      faceVerts_mem (hne gs' (List.mem_of_getElem? hk')) hus'
    obtain ⟨v, hv⟩ := List.exists_mem_of_ne_nil us n1
    have : v + vb k ∈ us'.map (· + vb k') := hp.mem_iff.1 (List.mem_map.2 ⟨v, hv, rfl⟩)
    obtain ⟨v', hv', hvv⟩ := List.mem_map.1 this
    obtain ⟨rfl, _⟩ := hb.apart k k' gs gs' g g' row row' v v' hk hk' hg hg' hrow hrow' (hm v hv)
      (hm' v' hv') hvv.symm
    rw [hk] at hk'; cases hk'
    refine ⟨rfl, us, us', hus, hus', ?_⟩
    exact (List.map_perm_map_iff (fun a b h => by simpa using h)).1 hp
  · rintro ⟨rfl, vs, vs', h1, h2, hp⟩
    rw [hk] at hk'; cases hk'
    refine ⟨vs.map (· + vb k), vs'.map (· + vb k), ?_, ?_, hp.map _⟩
    · rw [he.verts k gs f F hk hf hF, h1]; rfl
    · rw [he.verts k gs f' F' hk hf' hF', h2]; rfl

theorem FaceEmb.isFace {gss : List (List (ElGroup N))} {groups' : List (ElGroup N)}
    {emb : Nat → FaceId → FaceId → Prop} {vb : Nat → Nat} (he : FaceEmb gss groups' emb vb)
    {k : Nat} {gs : List (ElGroup N)} {f F : FaceId} (hk : gss[k]? = some gs) (hf : IsFace gs f)
    (hF : emb k f F) : IsFace groups' F := by
  obtain ⟨F', h1, h2⟩ := he.total k gs f hk hf
  rwa [he.func k f F F' hF h1]

theorem atMostTwo_emb {gss : List (List (ElGroup N))} {groups' : List (ElGroup N)}
    {emb : Nat → FaceId → FaceId → Prop} {vb : Nat → Nat} (he : FaceEmb gss groups' emb vb)
    (hb : BasesOK gss vb) (hne : ∀ gs ∈ gss, ∀ g ∈ gs, ∀ ref ∈ g.fvi, ref ≠ [])
    (htwo : ∀ gs ∈ gss, AtMostTwoSides gs) : AtMostTwoSides groups' := by
  intro F F' F'' hF hF' hF'' h1 h2 n1 n2
  obtain ⟨k, gs, f, hk, hf, e⟩ := he.onto F hF
  obtain ⟨k', gs', f', hk', hf', e'⟩ := he.onto F' hF'
  obtain ⟨k'', gs'', f'', hk'', hf'', e''⟩ := he.onto F'' hF''
  obtain ⟨rfl, s1⟩ := (sameVertices_emb he hb hne hk hk' hf hf' e e').1 h1
  obtain ⟨rfl, s2⟩ := (sameVertices_emb he hb hne hk hk'' hf hf'' e e'').1 h2
  rw [hk] at hk' hk''; cases hk'; cases hk''
  have := htwo gs (List.mem_of_getElem? hk) f f' f'' hf hf' hf'' s1 s2
    (by rintro rfl; exact n1 (he.func _ _ _ _ e e'))
    (by rintro rfl; exact n2 (he.func _ _ _ _ e e''))
  subst this
  exact he.func _ _ _ _ e' e''

/-- Neighbours of the computed adjacency. -/
theorem isNeighbor_iff {groups : List (ElGroup N)} (hwf : ∀ g ∈ groups, g.WF)
    (htwo : AtMostTwoSides groups) (aff0 : A) (f f' : FaceId) :
    IsNeighbor (computeFacial aff0 groups [] []) f f' ↔
      IsFace groups f ∧ IsFace groups f' ∧ f' ≠ f ∧ SameVertices groups f f' := by
  constructor
  · intro h
    obtain ⟨_, h1, h2, h3, h4⟩ := C02_facial_adjacency_symmetric hwf aff0 [] [] f f' h
    exact ⟨h2, h3, fun e => h1 e.symm, h4⟩
  · rintro ⟨h1, h2, h3, h4⟩
    rcases C03_facial_adjacency_complete hwf htwo aff0 [] [] (by simp) f h1 with h | h
    · exact absurd h4 ((C03_boundary_iff_no_partner hwf aff0 [] [] (by simp) f h1).1 h.1 f' h2 h3)
    · exact (h.2.2 f').2 ⟨h2, h3, h4⟩

theorem isNeighbor_emb {gss : List (List (ElGroup N))} {groups' : List (ElGroup N)}
    {emb : Nat → FaceId → FaceId → Prop} {vb : Nat → Nat} (he : FaceEmb gss groups' emb vb)
    (hb : BasesOK gss vb) (hne : ∀ gs ∈ gss, ∀ g ∈ gs, ∀ ref ∈ g.fvi, ref ≠ [])
    (htwo : ∀ gs ∈ gss, AtMostTwoSides gs) (hwf : ∀ gs ∈ gss, ∀ g ∈ gs, g.WF)
    (hwf' : ∀ g ∈ groups', g.WF) (aff0 : A) (F F' : FaceId) :
    IsNeighbor (computeFacial aff0 groups' [] []) F F' ↔
      ∃ k gs f f', gss[k]? = some gs ∧ emb k f F ∧ emb k f' F' ∧
        IsNeighbor (computeFacial aff0 gs [] []) f f' := by
  rw [isNeighbor_iff hwf' (atMostTwo_emb he hb hne htwo)]
  constructor
  · rintro ⟨h1, h2, h3, h4⟩
    obtain ⟨k, gs, f, hk, hf, e⟩ := he.onto F h1
    obtain ⟨k', gs', f', hk', hf', e'⟩ := he.onto F' h2
    obtain ⟨rfl, s⟩ := (sameVertices_emb he hb hne hk hk' hf hf' e e').1 h4
    rw [hk] at hk'; cases hk'
    have hm := List.mem_of_getElem? hk
    refine ⟨k, gs, f, f', hk, e, e', (isNeighbor_iff (hwf gs hm) (htwo gs hm) aff0 f f').2
      ⟨hf, hf', ?_, s⟩⟩
    rintro rfl
    exact h3 (he.func _ _ _ _ e' e)
  · rintro ⟨k, gs, f, f', hk, e, e', h⟩
    have hm := List.mem_of_getElem? hk
    obtain ⟨hf, hf', n, s⟩ := (isNeighbor_iff (hwf gs hm) (htwo gs hm) aff0 f f').1 h
    refine ⟨he.isFace hk hf e, he.isFace hk hf' e', ?_,
      (sameVertices_emb he hb hne hk hk hf hf' e e').2 ⟨rfl, s⟩⟩
    rintro rfl
    exact n (he.inj _ _ _ _ _ e' e).2

theorem inBoundary_emb {gss : List (List (ElGroup N))} {groups' : List (ElGroup N)}
    {emb : Nat → FaceId → FaceId → Prop} {vb : Nat → Nat} (he : FaceEmb gss groups' emb vb)
    (hb : BasesOK gss vb) (hne : ∀ gs ∈ gss, ∀ g ∈ gs, ∀ ref ∈ g.fvi, ref ≠ [])
    (hwf : ∀ gs ∈ gss, ∀ g ∈ gs, g.WF)
    (hwf' : ∀ g ∈ groups', g.WF) (aff0 : A) {k : Nat} {gs : List (ElGroup N)} {f F : FaceId}
    (hk : gss[k]? = some gs) (hf : IsFace gs f) (hF : emb k f F) :
    InBoundary (computeFacial aff0 groups' [] []) .reallyAll F ↔
      InBoundary (computeFacial aff0 gs [] []) .reallyAll f := by
  have hm := List.mem_of_getElem? hk
  rw [C03_boundary_iff_no_partner hwf' aff0 [] [] (by simp) F (he.isFace hk hf hF),
    C03_boundary_iff_no_partner (hwf gs hm) aff0 [] [] (by simp) f hf]
  constructor
  · intro h f' hf' hne' hs
    obtain ⟨F', e', hF'⟩ := he.total k gs f' hk hf'
    refine h F' hF' ?_ ((sameVertices_emb he hb hne hk hk hf hf' hF e').2 ⟨rfl, hs⟩)
    rintro rfl
    exact hne' (he.inj _ _ _ _ _ e' hF).2
  · intro h F' hF' hne' hs
    obtain ⟨k', gs', f', hk', hf', e'⟩ := he.onto F' hF'
    obtain ⟨rfl, s⟩ := (sameVertices_emb he hb hne hk hk' hf hf' hF e').1 hs
    rw [hk] at hk'; cases hk'
    refine h f' hf' ?_ s
    rintro rfl
    exact hne' (he.func _ _ _ _ e' hF)

/-! ## The two ways of merging -/

/-- Every group has one vertex row per element, etc.; kept by shifting. -/
theorem shiftGroup_wf {g : ElGroup N} (b : Nat) (h : g.WF) : (shiftGroup b g).WF := by
  refine ⟨by simpa [shiftGroup] using h.1, ?_⟩
  intro row hrow ref href k hk
  simp only [shiftGroup, List.mem_map] at hrow
  obtain ⟨row0, h0, rfl⟩ := hrow
  rw [List.length_map]
  exact h.2 row0 h0 ref href k hk

theorem mergeGroups_wf {gss : List (List (ElGroup N))} {bases : List Nat}
    (hlen : bases.length = gss.length) (hwf : ∀ gs ∈ gss, ∀ g ∈ gs, g.WF) :
    ∀ g ∈ mergeGroups gss bases, g.WF := by
  intro g' hg'
  obtain ⟨G, hG⟩ := List.mem_iff_getElem?.1 hg'
  obtain ⟨k, g, gs, b, grp, h1, h2, h3, h4, rfl⟩ := mergeGroups_origin hlen hG
  exact shiftGroup_wf b (hwf gs (List.mem_of_getElem? h1) grp (List.mem_of_getElem? h3))

theorem faceEmb_multi {gss : List (List (ElGroup N))} {bases : List Nat}
    (hlen : bases.length = gss.length) :
    FaceEmb gss (mergeGroups gss bases) (fun k f F =>
      IsGlobalNr (gss.map List.length) k f.grp F.grp ∧ F.el = f.el ∧ F.face = f.face)
      (fun k => bases[k]?.getD 0) where
  total := by
    rintro k gs ⟨g, el, face⟩ hk ⟨grp, hg, hface, hel⟩
    have hb := List.getElem?_eq_getElem (l := bases) (i := k)
      (by rw [hlen]; exact (List.getElem?_eq_some_iff.1 hk).1)
    have hlt : g < gs.length := (List.getElem?_eq_some_iff.1 hg).1
    refine ⟨⟨((gss.map List.length).take k).sum + g, el, face⟩,
      ⟨⟨gs.length, by simp [hk], hlt, rfl⟩, rfl, rfl⟩, shiftGroup (bases[k]?.getD 0) grp, ?_, hface, hel⟩
    simp only at hg ⊢
    rw [mergeGroups_getElem? hlen hk hb ⟨gs.length, by simp [hk], hlt, rfl⟩, hg, hb]; rfl
  onto := by
    rintro ⟨G, el, face⟩ ⟨grp', hG, hface, hel⟩
    obtain ⟨k, g, gs, b, grp, h1, h2, h3, h4, rfl⟩ := mergeGroups_origin hlen hG
    exact ⟨k, gs, ⟨g, el, face⟩, h1, ⟨grp, h3, hface, hel⟩, h4, rfl, rfl⟩
  inj := by
    rintro k ⟨g, el, face⟩ k' ⟨g', el', face'⟩ ⟨G, EL, FACE⟩ ⟨h1, h2, h3⟩ ⟨h1', h2', h3'⟩
    obtain ⟨rfl, h4⟩ := (C01_numbering_bijective _ _).2 _ _ _ _ h1 h1'
    simp only at *
    subst h4 h2 h3
    exact ⟨trivial, by rw [h2', h3']⟩
  func := by
    rintro k ⟨g, el, face⟩ ⟨G, EL, FACE⟩ ⟨G', EL', FACE'⟩ ⟨⟨n, h0, h1, h1'⟩, h2, h3⟩
      ⟨⟨n', h0', h4, h4'⟩, h5, h6⟩
    simp only at *
    subst h2 h3 h5 h6 h1' h4'
    rfl
  verts := by
    rintro k gs f F hk ⟨grp, hg, hface, hel⟩ ⟨h1, h2, h3⟩
    have hb := List.getElem?_eq_getElem (l := bases) (i := k)
      (by rw [hlen]; exact (List.getElem?_eq_some_iff.1 hk).1)
    have := mergeGroups_getElem? hlen hk hb h1
    rw [hg] at this
    rw [faceVerts_shift hg this h2 h3, hb]; rfl

/-- What `mergeSingle` returns. -/
theorem mergeSingle_some {gss : List (List (ElGroup N))} {bases : List Nat}
    {groups' : List (ElGroup N)} (h : mergeSingle gss bases = some groups') :
    ∃ ref, ref ∈ gss.flatten ∧ (∀ g ∈ gss.flatten, g.kind = ref.kind) ∧
      groups' = [{ ref with
          vertexIndices := (mergeGroups gss bases).flatMap ElGroup.vertexIndices
          nodes := (mergeGroups gss bases).flatMap ElGroup.nodes }] := by
  unfold mergeSingle at h
  split at h
  · simp at h
  · rename_i ref rest heq
    split at h
    · rename_i hall
      simp only [Option.some.injEq] at h
      refine ⟨ref, by rw [heq]; simp, ?_, h.symm⟩
      rw [heq]
      intro g hg
      rcases List.mem_cons.1 hg with rfl | hg
      · rfl
      · exact by simpa using List.all_eq_true.1 hall g hg
    · simp at h

/-- A row of the concatenated vertex table. -/
theorem flatMap_vertexIndices {gs : List (ElGroup N)} (hwf : ∀ g ∈ gs, g.WF) {G i E : Nat}
    {grp : ElGroup N} (hg : gs[G]? = some grp)
    (h : IsGlobalNr (gs.map ElGroup.nelements) G i E) :
    (gs.flatMap ElGroup.vertexIndices)[E]? = grp.vertexIndices[i]? := by
  rw [List.flatMap_def, flatten_getElem? (k := G) (i := i)]
  · simp [hg]
  · rw [List.map_map]
    have : gs.map (List.length ∘ ElGroup.vertexIndices) = gs.map ElGroup.nelements := by
      apply List.map_congr_left
      intro g hg
      exact (hwf g hg).1
    rw [this]; exact h

theorem flatMap_nodes {gs : List (ElGroup N)} {G i E : Nat}
    {grp : ElGroup N} (hg : gs[G]? = some grp)
    (h : IsGlobalNr (gs.map ElGroup.nelements) G i E) :
    (gs.flatMap ElGroup.nodes)[E]? = grp.nodes[i]? := by
  rw [List.flatMap_def, flatten_getElem? (k := G) (i := i)]
  · simp [hg]
  · rw [List.map_map]; exact h

theorem nelements_flatMap (gs : List (ElGroup N)) :
    (gs.flatMap ElGroup.nodes).length = nelements (gs.map ElGroup.nelements) := by
  rw [List.length_flatMap]; rfl

/-- The numbering of the single merged group is the mesh-wide numbering of the groups merged one
by one. -/
theorem single_origin {gss : List (List (ElGroup N))} {bases : List Nat}
    (hlen : bases.length = gss.length) {E : Nat}
    (h : E < nelements ((mergeGroups gss bases).map ElGroup.nelements)) :
    ∃ k g G i e gs b grp, gss[k]? = some gs ∧ bases[k]? = some b ∧ gs[g]? = some grp ∧
      IsGlobalNr (gs.map ElGroup.nelements) g i e ∧
      IsGlobalNr (gss.map fun gs => nelements (gs.map ElGroup.nelements)) k e E ∧
      (mergeGroups gss bases)[G]? = some (shiftGroup b grp) ∧ i < grp.nelements ∧
      IsGlobalNr ((mergeGroups gss bases).map ElGroup.nelements) G i E := by
  obtain ⟨G, i, hGi⟩ := (C01_numbering_bijective _ E).1.1 h
  obtain ⟨n, hn, hi, hE⟩ := hGi
  have hGi : IsGlobalNr ((mergeGroups gss bases).map ElGroup.nelements) G i E := ⟨n, hn, hi, hE⟩
  rw [List.getElem?_map] at hn
  obtain ⟨grp', hG, rfl⟩ := Option.map_eq_some_iff.1 hn
  obtain ⟨k, g, gs, b, grp, h1, h2, h3, h4, rfl⟩ := mergeGroups_origin hlen hG
  obtain ⟨e, h5, h6⟩ := (isGlobalNr_merge hlen h1 h4).1 hGi
  exact ⟨k, g, G, i, e, gs, b, grp, h1, h2, h3, h5, h6, hG, hi, hGi⟩

theorem single_image {gss : List (List (ElGroup N))} {bases : List Nat}
    (hlen : bases.length = gss.length) {k g i e E : Nat} {gs : List (ElGroup N)}
    {grp : ElGroup N} (hk : gss[k]? = some gs) (hg : gs[g]? = some grp)
    (h1 : IsGlobalNr (gs.map ElGroup.nelements) g i e)
    (h2 : IsGlobalNr (gss.map fun gs => nelements (gs.map ElGroup.nelements)) k e E) :
    ∃ G b, bases[k]? = some b ∧ (mergeGroups gss bases)[G]? = some (shiftGroup b grp) ∧
      IsGlobalNr ((mergeGroups gss bases).map ElGroup.nelements) G i E := by
  have hb := List.getElem?_eq_getElem (l := bases) (i := k)
    (by rw [hlen]; exact (List.getElem?_eq_some_iff.1 hk).1)
  have hG : IsGlobalNr (gss.map List.length) k g (((gss.map List.length).take k).sum + g) :=
    ⟨gs.length, by simp [hk], (List.getElem?_eq_some_iff.1 hg).1, rfl⟩
  refine ⟨_, _, hb, ?_, (isGlobalNr_merge hlen hk hG).2 ⟨e, h1, h2⟩⟩
  rw [mergeGroups_getElem? hlen hk hb hG, hg]; rfl

theorem faceEmb_single {gss : List (List (ElGroup N))} {bases : List Nat}
    (hlen : bases.length = gss.length) (hwf : ∀ gs ∈ gss, ∀ g ∈ gs, g.WF)
    (hkind : ∀ gs ∈ gss, ∀ gs' ∈ gss, ∀ g ∈ gs, ∀ g' ∈ gs', g.kind = g'.kind → g.fvi = g'.fvi)
    {groups' : List (ElGroup N)} (h : mergeSingle gss bases = some groups') :
    FaceEmb gss groups' (fun k f F => F.grp = 0 ∧ F.face = f.face ∧
      ∃ gs e, gss[k]? = some gs ∧ IsGlobalNr (gs.map ElGroup.nelements) f.grp f.el e ∧
        IsGlobalNr (gss.map fun gs => nelements (gs.map ElGroup.nelements)) k e F.el)
      (fun k => bases[k]?.getD 0) ∧ ∀ g ∈ groups', g.WF := by
  obtain ⟨ref, href, hall, rfl⟩ := mergeSingle_some h
  have hfvi : ∀ gs ∈ gss, ∀ g ∈ gs, g.fvi = ref.fvi := by
    intro gs hgs g hg
    obtain ⟨gs', hgs', hr⟩ := List.mem_flatten.1 href
    exact hkind gs hgs gs' hgs' g hg ref hr (hall g (List.mem_flatten.2 ⟨gs, hgs, hg⟩))
  have hwf' := mergeGroups_wf hlen hwf
  have hlen' : nelements ((mergeGroups gss bases).map ElGroup.nelements) =
      ((mergeGroups gss bases).flatMap ElGroup.nodes).length := (nelements_flatMap _).symm
  refine ⟨⟨?_, ?_, ?_, ?_, ?_⟩, ?_⟩
  · rintro k gs ⟨g, i, face⟩ hk ⟨grp, hg, hface, hel⟩
    have hsz : (gs.map ElGroup.nelements)[g]? = some grp.nelements := by simp [hg]
    have h1 : IsGlobalNr (gs.map ElGroup.nelements) g i
        (((gs.map ElGroup.nelements).take g).sum + i) := ⟨_, hsz, hel, rfl⟩
    have hlt := (C01_numbering_bijective (gs.map ElGroup.nelements) _).1.2 ⟨_, _, h1⟩
    have h2 : IsGlobalNr (gss.map fun gs => nelements (gs.map ElGroup.nelements)) k _
        (((gss.map fun gs => nelements (gs.map ElGroup.nelements)).take k).sum +
          (((gs.map ElGroup.nelements).take g).sum + i)) := ⟨_, by simp [hk], hlt, rfl⟩
    obtain ⟨G, b, hb, hG, hGi⟩ := single_image hlen hk hg h1 h2
    refine ⟨⟨0, _, face⟩, ⟨rfl, rfl, gs, _, hk, h1, h2⟩, _, rfl, ?_, ?_⟩
    · show face < ref.fvi.length
      rw [← hfvi gs (List.mem_of_getElem? hk) grp (List.mem_of_getElem? hg)]
      exact hface
    · have := (C01_numbering_bijective _ _).1.2 ⟨_, _, hGi⟩
      rw [hlen'] at this
      exact this
  · rintro ⟨G0, E, face⟩ ⟨grp', hG0, hface, hel⟩
    cases G0 with
    | succ n => simp at hG0
    | zero =>
      simp only [List.getElem?_cons_zero, Option.some.injEq] at hG0
      subst hG0
      have hE : E < nelements ((mergeGroups gss bases).map ElGroup.nelements) := by
        rw [hlen']; exact hel
      obtain ⟨k, g, G, i, e, gs, b, grp, h1, h2, h3, h4, h5, h6, h7, h8⟩ := single_origin hlen hE
      refine ⟨k, gs, ⟨g, i, face⟩, h1, ⟨grp, h3, ?_, h7⟩, rfl, rfl, gs, e, h1, h4, h5⟩
      show face < grp.fvi.length
      rw [hfvi gs (List.mem_of_getElem? h1) grp (List.mem_of_getElem? h3)]
      exact hface
  · rintro k ⟨g, i, face⟩ k' ⟨g', i', face'⟩ ⟨G, E, F⟩ ⟨h1, h2, gs, e, h3, h4, h5⟩
      ⟨h1', h2', gs', e', h3', h4', h5'⟩
    obtain ⟨rfl, rfl⟩ := (C01_numbering_bijective _ _).2 _ _ _ _ h5 h5'
    rw [h3] at h3'; cases h3'
    obtain ⟨h6, h7⟩ := (C01_numbering_bijective _ _).2 _ _ _ _ h4 h4'
    simp only at *
    subst h6 h7 h2 h2'
    exact ⟨trivial, rfl⟩
  · rintro k ⟨g, i, face⟩ ⟨G, E, F⟩ ⟨G', E', F'⟩ ⟨h1, h2, gs, e, h3, ⟨_, _, _, h4⟩, ⟨_, _, _, h5⟩⟩
      ⟨h1', h2', gs', e', h3', ⟨_, _, _, h4'⟩, ⟨_, _, _, h5'⟩⟩
    rw [h3] at h3'; cases h3'
    simp only at *
    subst h1 h2 h4 h5 h1' h2' h4' h5'
    rfl
  · rintro k gs f F hk ⟨grp, hg, hface, hel⟩ ⟨h1, h2, gs', e, h3, h4, h5⟩
    rw [hk] at h3; cases h3
    obtain ⟨G, b, hb, hG, hGi⟩ := single_image hlen hk hg h4 h5
    rw [hb]
    unfold faceVerts
    rw [h1, h2, hg]
    simp only [List.getElem?_cons_zero, Option.bind_eq_bind, Option.bind_some, Option.getD_some]
    rw [flatMap_vertexIndices hwf' hG hGi,
      hfvi gs (List.mem_of_getElem? hk) grp (List.mem_of_getElem? hg)]
    simp only [shiftGroup, List.getElem?_map]
    cases ref.fvi[f.face]? with
    | none => rfl
    | some r =>
      simp only [Option.bind_some]
      cases grp.vertexIndices[f.el]? with
      | none => rfl
      | some row =>
        simp only [Option.bind_some, Option.map_some]
        exact mapM_map_getElem? _ _ _
  · intro g hg
    rw [List.mem_singleton] at hg
    subst hg
    refine ⟨?_, ?_⟩
    · show ((mergeGroups gss bases).flatMap ElGroup.vertexIndices).length =
        ((mergeGroups gss bases).flatMap ElGroup.nodes).length
      rw [List.length_flatMap, List.length_flatMap]
      congr 1
      apply List.map_congr_left
      intro g hg
      exact (hwf' g hg).1
    · intro row hrow r hr j hj
      obtain ⟨g, hg, hrow⟩ := List.mem_flatMap.1 hrow
      refine (hwf' g hg).2 row hrow r ?_ j hj
      obtain ⟨G, hG⟩ := List.mem_iff_getElem?.1 hg
      obtain ⟨k, g', gs, b, grp, h1, h2, h3, h4, rfl⟩ := mergeGroups_origin hlen hG
      show r ∈ grp.fvi
      rw [hfvi gs (List.mem_of_getElem? h1) grp (List.mem_of_getElem? h3)]
      exact hr

/-! ## What a successful merge computed -/

theorem mergeDisjoint_ok {ms : List (FMesh N P A)} {single : Bool} {M : FMesh N P A}
    (h : mergeDisjoint ms single = .ok M) :
    ∃ vss, ms.mapM FMesh.vertices = some vss ∧ M.vertices = some vss.flatten ∧
      (∀ m ∈ ms, m.ambientDim = M.ambientDim) ∧
      (if single then mergeSingle (ms.map FMesh.groups) (vertBases 0 (vss.map List.length))
        else some (mergeGroups (ms.map FMesh.groups) (vertBases 0 (vss.map List.length)))) =
        some M.groups ∧
      M.lazy = LazyMesh.make completeFacial true
        (some (ms.all fun m => m.lazy.conforming == some true))
        (if ms.any fun m => decide (m.lazy.nodal ≠ .missing) then .disabled else .missing)
        (if ms.any fun m => !(match m.lazy.facial with | .missing => true | _ => false)
          then .disabled else .missing) := by
  unfold mergeDisjoint at h
  split at h
  · simp at h
  · rename_i m0 rest
    split at h
    · simp at h
    · rename_i hdim
      split at h
      · simp at h
      · rename_i x vss hvss
        simp only at h
        split at h
        · simp at h
        · rename_i x groups hgroups
          simp only [Except.ok.injEq] at h
          subst h
          refine ⟨vss, hvss, rfl, ?_, hgroups, rfl⟩
          intro m hm
          rcases List.mem_cons.1 hm with rfl | hm
          · rfl
          · by_contra hc
            exact hdim (List.any_eq_true.2 ⟨m, hm, by simpa using hc⟩)

/-- The offsets keep the inputs' vertex numbers apart. -/
theorem basesOK_merge {ms : List (FMesh N P A)} {vss : List (List P)}
    (hv : ms.mapM FMesh.vertices = some vss) (hok : ∀ m ∈ ms, ∃ vs, m.OK vs) :
    (vertBases 0 (vss.map List.length)).length = (ms.map FMesh.groups).length ∧
    BasesOK (ms.map FMesh.groups) (fun k => (vertBases 0 (vss.map List.length))[k]?.getD 0) := by
  obtain ⟨h1, h2⟩ := mapM_getElem?_some hv
  refine ⟨by simp [length_vertBases, h1], ⟨?_⟩⟩
  intro k k' gs gs' g g' row row' v v' hk hk' hg hg' hrow hrow' hvr hvr' heq
  have aux : ∀ {k : Nat} {gs : List (ElGroup N)} {g : ElGroup N} {row : List Nat} {v : Nat},
      (ms.map FMesh.groups)[k]? = some gs → g ∈ gs → row ∈ g.vertexIndices → v ∈ row →
      IsGlobalNr (vss.map List.length) k v
        (v + ((vertBases 0 (vss.map List.length))[k]?.getD 0)) := by
    intro k gs g row v hk hg hrow hvr
    rw [List.getElem?_map] at hk
    obtain ⟨m, hm, rfl⟩ := Option.map_eq_some_iff.1 hk
    obtain ⟨vs, hvs⟩ := hok m (List.mem_of_getElem? hm)
    obtain ⟨vs', h3, h4⟩ := h2 k m hm
    rw [hvs.vertices] at h4; cases h4
    have hlt : k < vss.length := (List.getElem?_eq_some_iff.1 h3).1
    refine ⟨vs.length, by simp [h3], hvs.valid g hg row hrow v hvr, ?_⟩
    rw [vertBases_eq, if_pos (by simpa using hlt)]
    simp only [Option.getD_some]; omega
  have a1 := aux hk hg hrow hvr
  have a2 := aux hk' hg' hrow' hvr'
  rw [heq] at a1
  exact (C01_numbering_bijective _ _).2 _ _ _ _ a1 a2

theorem ok_lists {ms : List (FMesh N P A)} (hok : ∀ m ∈ ms, ∃ vs, m.OK vs) :
    (∀ gs ∈ ms.map FMesh.groups, ∀ g ∈ gs, g.WF) ∧
    (∀ gs ∈ ms.map FMesh.groups, ∀ g ∈ gs, ∀ ref ∈ g.fvi, ref ≠ []) := by
  constructor <;>
  · intro gs hgs
    obtain ⟨m, hm, rfl⟩ := List.mem_map.1 hgs
    obtain ⟨vs, h⟩ := hok m hm
    first | exact h.wf | exact h.faces

/-- The face correspondence is an embedding, in both modes. -/
theorem faceEmb_merge {ms : List (FMesh N P A)} (hok : ∀ m ∈ ms, ∃ vs, m.OK vs)
    (hkind : ∀ m ∈ ms, ∀ m' ∈ ms, ∀ g ∈ m.groups, ∀ g' ∈ m'.groups, g.kind = g'.kind →
      g.fvi = g'.fvi)
    {single : Bool} {M : FMesh N P A} (h : mergeDisjoint ms single = .ok M) :
    ∃ vb, BasesOK (ms.map FMesh.groups) vb ∧ (∀ g ∈ M.groups, g.WF) ∧
      FaceEmb (ms.map FMesh.groups) M.groups
        (if single then MergedFaceSingle ms else MergedFace ms) vb := by
  obtain ⟨vss, hv, _, _, hg, _⟩ := mergeDisjoint_ok h
  obtain ⟨hlen, hb⟩ := basesOK_merge hv hok
  obtain ⟨hwf, hne⟩ := ok_lists hok
  refine ⟨_, hb, ?_⟩
  cases single with
  | false =>
    simp only [Bool.false_eq_true, if_false, Option.some.injEq] at hg ⊢
    rw [← hg]
    refine ⟨mergeGroups_wf hlen hwf, ?_⟩
    have := faceEmb_multi hlen
    rw [List.map_map] at this
    exact this
  | true =>
    simp only [if_true] at hg ⊢
    obtain ⟨h1, h2⟩ := faceEmb_single hlen hwf (by
      intro gs hgs gs' hgs' g hg g' hg'
      obtain ⟨m, hm, rfl⟩ := List.mem_map.1 hgs
      obtain ⟨m', hm', rfl⟩ := List.mem_map.1 hgs'
      exact hkind m hm m' hm' g hg g' hg') hg
    refine ⟨h2, ?_⟩
    have heq : MergedFaceSingle ms = (fun (k : Nat) (f F : FaceId) => F.grp = 0 ∧ F.face = f.face ∧
      ∃ gs e, (ms.map FMesh.groups)[k]? = some gs ∧
        IsGlobalNr (gs.map ElGroup.nelements) f.grp f.el e ∧
        IsGlobalNr ((ms.map FMesh.groups).map fun gs => nelements (gs.map ElGroup.nelements)) k e
          F.el) := by
      funext k f F
      simp only [MergedFaceSingle, MergedElem, List.map_map, eq_iff_iff]
      constructor
      · rintro ⟨h1, h2, m, e, h3, h4, h5⟩
        exact ⟨h1, h2, m.groups, e, by simp [h3], h4, h5⟩
      · rintro ⟨h1, h2, gs, e, h3, h4, h5⟩
        rw [List.getElem?_map] at h3
        obtain ⟨m, hm, rfl⟩ := Option.map_eq_some_iff.1 h3
        exact ⟨h1, h2, m, e, hm, h4, h5⟩
    rw [heq]; exact h1

/-! ## Properties -/

/-- C14, elements: the merged mesh's element number `E` is element `e` of some input `k` and has
the same nodes and, point by point, the same vertices; all elements of all inputs are there, each
once. Without `single_group` groups stay separate, in order; with it there is one group. -/
theorem C14_merge_elements {ms : List (FMesh N P A)} (hok : ∀ m ∈ ms, ∃ vs, m.OK vs)
    {single : Bool} {M : FMesh N P A} (h : mergeDisjoint ms single = .ok M) :
    (∀ E, E < M.size ↔ ∃ k e, MergedElem ms k e E) ∧
    (∀ k e k' e' E, MergedElem ms k e E → MergedElem ms k' e' E → k = k' ∧ e = e') ∧
    (single = true → M.groups.length = 1) ∧
    (∀ (k : Nat) m g i e E grp vs, ms[k]? = some m → m.OK vs → m.groups[g]? = some grp →
      IsGlobalNr (m.groups.map ElGroup.nelements) g i e → MergedElem ms k e E →
      ∃ G I grp' vs', IsGlobalNr (M.groups.map ElGroup.nelements) G I E ∧
        M.groups[G]? = some grp' ∧ M.vertices = some vs' ∧
        grp'.kind = grp.kind ∧ grp'.nodes[I]? = grp.nodes[i]? ∧
        (single = false → MergedGroup ms k g G ∧ I = i) ∧
        ∃ row row', grp.vertexIndices[i]? = some row ∧ grp'.vertexIndices[I]? = some row' ∧
          row'.map (vs'[·]?) = row.map (vs[·]?)) := by
  obtain ⟨vss, hv, hverts, _, hg, _⟩ := mergeDisjoint_ok h
  obtain ⟨hlen, hb⟩ := basesOK_merge hv hok
  obtain ⟨hwf, hne⟩ := ok_lists hok
  obtain ⟨hvl, hvg⟩ := mapM_getElem?_some hv
  have hsz : M.size = nelements ((mergeGroups (ms.map FMesh.groups)
      (vertBases 0 (vss.map List.length))).map ElGroup.nelements) := by
    unfold FMesh.size
    cases single with
    | false => simp only [Bool.false_eq_true, if_false, Option.some.injEq] at hg; rw [← hg]
    | true =>
      simp only [if_true] at hg
      obtain ⟨ref, _, _, hM⟩ := mergeSingle_some hg
      rw [hM]
      simp [nelements, ElGroup.nelements, List.length_flatMap]
      rfl
  have hmap : ((ms.map FMesh.groups).map fun gs => nelements (gs.map ElGroup.nelements)) =
      ms.map FMesh.size := by rw [List.map_map]; rfl
  refine ⟨?_, ?_, ?_, ?_⟩
  · intro E
    rw [hsz]
    constructor
    · intro hE
      obtain ⟨k, g, G, i, e, gs, b, grp, h1, h2, h3, h4, h5, _⟩ := single_origin hlen hE
      rw [hmap] at h5
      exact ⟨k, e, h5⟩
    · rintro ⟨k, e, hke⟩
      have hlt := (C01_numbering_bijective _ _).1.2 ⟨k, e, hke⟩
      have : nelements (ms.map FMesh.size) = nelements ((mergeGroups (ms.map FMesh.groups)
          (vertBases 0 (vss.map List.length))).map ElGroup.nelements) := by
        rw [sizes_mergeGroups hlen]
        unfold nelements
        rw [List.sum_flatten, ← hmap, List.map_map, List.map_map, List.map_map]; rfl
      omega
  · intro k e k' e' E h1 h2
    exact (C01_numbering_bijective _ _).2 _ _ _ _ h1 h2
  · rintro rfl
    simp only [if_true] at hg
    obtain ⟨ref, _, _, hM⟩ := mergeSingle_some hg
    rw [hM]; rfl
  · intro k m g i e E grp vs hk hvs hgrp h1 h2
    have hk' : (ms.map FMesh.groups)[k]? = some m.groups := by simp [hk]
    have h2' : IsGlobalNr ((ms.map FMesh.groups).map
        fun gs => nelements (gs.map ElGroup.nelements)) k e E := by rw [hmap]; exact h2
    obtain ⟨n, hn, hi, he⟩ := h1
    have h1 : IsGlobalNr (m.groups.map ElGroup.nelements) g i e := ⟨n, hn, hi, he⟩
    simp only [List.getElem?_map, hgrp, Option.map_some, Option.some.injEq] at hn
    subst hn
    have hwfg := hvs.wf grp (List.mem_of_getElem? hgrp)
    have hib : i < grp.vertexIndices.length := by rw [hwfg.1]; exact hi
    have hrow := List.getElem?_eq_getElem hib
    obtain ⟨vs', h3, h4⟩ := hvg k m hk
    rw [hvs.vertices] at h4; cases h4
    have hkl : k < vss.length := (List.getElem?_eq_some_iff.1 h3).1
    have hpoints : ∀ b, (vertBases 0 (vss.map List.length))[k]? = some b →
        (grp.vertexIndices[i].map (· + b)).map (vss.flatten[·]?) =
          grp.vertexIndices[i].map (vs[·]?) := by
      intro b hbk
      rw [List.map_map]
      apply List.map_congr_left
      intro v hvr
      rw [vertBases_eq, if_pos (by simpa using hkl)] at hbk
      have hbk' : b = ((vss.map List.length).take k).sum := by
        simpa using hbk.symm
      have hv' : v < vs.length :=
        hvs.valid grp (List.mem_of_getElem? hgrp) _ (List.getElem_mem hib) v hvr
      have : IsGlobalNr (vss.map List.length) k v (v + b) :=
        ⟨vs.length, by simp [h3], hv', by omega⟩
      simp only [Function.comp_apply]
      rw [flatten_getElem? this, h3]; rfl
    cases single with
    | false =>
      simp only [Bool.false_eq_true, if_false, Option.some.injEq] at hg
      have hG : IsGlobalNr ((ms.map FMesh.groups).map List.length) k g
          ((((ms.map FMesh.groups).map List.length).take k).sum + g) :=
        ⟨m.groups.length, by simp [hk], (List.getElem?_eq_some_iff.1 hgrp).1, rfl⟩
      have hbk := List.getElem?_eq_getElem (l := vertBases 0 (vss.map List.length)) (i := k)
        (by simpa [length_vertBases] using hkl)
      have hGrp := mergeGroups_getElem? hlen hk' hbk hG
      rw [hgrp, Option.map_some] at hGrp
      rw [hg] at hGrp
      refine ⟨_, i, _, _, ?_, hGrp, hverts, rfl, rfl, fun _ => ⟨?_, rfl⟩, _, _, hrow, ?_,
        hpoints _ hbk⟩
      · rw [← hg]; exact (isGlobalNr_merge hlen hk' hG).2 ⟨e, h1, h2'⟩
      · show IsGlobalNr (ms.map fun m => m.groups.length) k g _
        have : (ms.map fun m => m.groups.length) = (ms.map FMesh.groups).map List.length := by
          rw [List.map_map]; rfl
        rw [this]; exact hG
      · simp [shiftGroup, hrow]
    | true =>
      simp only [if_true] at hg
      obtain ⟨ref, href, hall, hM⟩ := mergeSingle_some hg
      obtain ⟨G, b, hbk, hG, hGi⟩ := single_image hlen hk' hgrp h1 h2'
      have hElt := (C01_numbering_bijective _ _).1.2 ⟨_, _, hGi⟩
      rw [← hsz] at hElt
      refine ⟨0, E, _, _, ?_, by rw [hM]; rfl, hverts, ?_, ?_, by simp, _, _, hrow, ?_,
        hpoints _ hbk⟩
      · refine ⟨M.size, ?_, hElt, by simp⟩
        simp [FMesh.size, hM, nelements]
      · exact (hall grp (List.mem_flatten.2 ⟨_, List.mem_of_getElem? hk',
          List.mem_of_getElem? hgrp⟩)).symm
      · exact (flatMap_nodes hG hGi).trans rfl
      · show ((mergeGroups _ _).flatMap ElGroup.vertexIndices)[E]? = _
        rw [flatMap_vertexIndices (mergeGroups_wf hlen hwf) hG hGi]
        simp [shiftGroup, hrow]

/-- C14, facial adjacency: computed for the merged mesh, two faces are neighbours exactly when they
come from one input and are neighbours there (so nothing connects different inputs), and a face is a
boundary face exactly when it was one. Given inputs without a face shared by three elements
(compare `C03_facial_adjacency_complete`) and one list of faces per kind of group. -/
theorem C14_merge_facial_partial {ms : List (FMesh N P A)} (hok : ∀ m ∈ ms, ∃ vs, m.OK vs)
    (hkind : ∀ m ∈ ms, ∀ m' ∈ ms, ∀ g ∈ m.groups, ∀ g' ∈ m'.groups, g.kind = g'.kind →
      g.fvi = g'.fvi)
    (htwo : ∀ m ∈ ms, AtMostTwoSides m.groups) (aff0 : A)
    {single : Bool} {M : FMesh N P A} (h : mergeDisjoint ms single = .ok M) :
    (∀ F F', IsNeighbor (computeFacial aff0 M.groups [] []) F F' ↔
      ∃ (k : Nat) (m : FMesh N P A) (f f' : FaceId), ms[k]? = some m ∧
        (if single then MergedFaceSingle ms else MergedFace ms) k f F ∧
        (if single then MergedFaceSingle ms else MergedFace ms) k f' F' ∧
        IsNeighbor (computeFacial aff0 m.groups [] []) f f') ∧
    (∀ (k : Nat) m f F, ms[k]? = some m → IsFace m.groups f →
      (if single then MergedFaceSingle ms else MergedFace ms) k f F →
      (InBoundary (computeFacial aff0 M.groups [] []) .reallyAll F ↔
        InBoundary (computeFacial aff0 m.groups [] []) .reallyAll f)) := by
  obtain ⟨vb, hb, hwf', he⟩ := faceEmb_merge hok hkind h
  obtain ⟨hwf, hne⟩ := ok_lists hok
  have htwo' : ∀ gs ∈ ms.map FMesh.groups, AtMostTwoSides gs := by
    intro gs hgs
    obtain ⟨m, hm, rfl⟩ := List.mem_map.1 hgs
    exact htwo m hm
  constructor
  · intro F F'
    rw [isNeighbor_emb he hb hne htwo' hwf hwf' aff0]
    constructor
    · rintro ⟨k, gs, f, f', hk, h1, h2, h3⟩
      rw [List.getElem?_map] at hk
      obtain ⟨m, hm, rfl⟩ := Option.map_eq_some_iff.1 hk
      exact ⟨k, m, f, f', hm, h1, h2, h3⟩
    · rintro ⟨k, m, f, f', hm, h1, h2, h3⟩
      exact ⟨k, m.groups, f, f', by simp [hm], h1, h2, h3⟩
  · intro k m f F hm hf hF
    exact inBoundary_emb he hb hne hwf hwf' aff0 (by simp [hm]) hf hF

/-- Elements of the merged mesh have the shifted vertex numbers of their origin. -/
theorem hasRow_merge {ms : List (FMesh N P A)} (hok : ∀ m ∈ ms, ∃ vs, m.OK vs)
    {single : Bool} {M : FMesh N P A} {vss : List (List P)}
    (hv : ms.mapM FMesh.vertices = some vss)
    (hg : (if single then mergeSingle (ms.map FMesh.groups) (vertBases 0 (vss.map List.length))
        else some (mergeGroups (ms.map FMesh.groups) (vertBases 0 (vss.map List.length)))) =
        some M.groups) (E : Nat) (row' : List Nat) :
    HasRow M.groups E row' ↔ ∃ (k : Nat) (m : FMesh N P A) (e : Nat) (row : List Nat),
      ms[k]? = some m ∧ MergedElem ms k e E ∧ HasRow m.groups e row ∧
      row' = row.map (· + (vertBases 0 (vss.map List.length))[k]?.getD 0) := by
  obtain ⟨hlen, hb⟩ := basesOK_merge hv hok
  obtain ⟨hwf, hne⟩ := ok_lists hok
  have hmap : ((ms.map FMesh.groups).map fun gs => nelements (gs.map ElGroup.nelements)) =
      ms.map FMesh.size := by rw [List.map_map]; rfl
  have key : HasRow M.groups E row' ↔ HasRow (mergeGroups (ms.map FMesh.groups)
      (vertBases 0 (vss.map List.length))) E row' := by
    cases single with
    | false => simp only [Bool.false_eq_true, if_false, Option.some.injEq] at hg; rw [← hg]
    | true =>
      simp only [if_true] at hg
      obtain ⟨ref, _, _, hM⟩ := mergeSingle_some hg
      rw [hM]
      have hw := mergeGroups_wf hlen hwf
      generalize mergeGroups (ms.map FMesh.groups) (vertBases 0 (vss.map List.length)) = gs at hw
      constructor
      · rintro ⟨k, i, g, hg1, hr, n, hn, hi, rfl⟩
        rcases k with _ | k
        · simp only [List.getElem?_cons_zero, Option.some.injEq] at hg1
          subst hg1
          simp only [List.map_cons, List.map_nil, List.getElem?_cons_zero, Option.some.injEq,
            ElGroup.nelements] at hn
          subst hn
          rw [nelements_flatMap] at hi
          obtain ⟨G, j, hGj⟩ := (C01_numbering_bijective _ i).1.1 hi
          have hlt := isGlobalNr_lt hGj
          rw [List.length_map] at hlt
          have hG := List.getElem?_eq_getElem hlt
          simp only at hr
          rw [flatMap_vertexIndices hw hG hGj] at hr
          exact ⟨G, j, gs[G], hG, hr, by simpa using hGj⟩
        · simp at hg1
      · rintro ⟨G, j, g, hG, hr, hGj⟩
        refine ⟨0, E, _, rfl, ?_, ?_⟩
        · simp only; rw [flatMap_vertexIndices hw hG hGj]; exact hr
        · refine ⟨_, rfl, ?_, by simp⟩
          show E < (gs.flatMap ElGroup.nodes).length
          rw [nelements_flatMap]
          exact (C01_numbering_bijective _ E).1.2 ⟨_, _, hGj⟩
  rw [key]
  constructor
  · rintro ⟨G, j, g', hG, hr, hGj⟩
    obtain ⟨k, g, gs, b, grp, h1, h2, h3, h4, rfl⟩ := mergeGroups_origin hlen hG
    obtain ⟨e, h5, h6⟩ := (isGlobalNr_merge hlen h1 h4).1 hGj
    rw [List.getElem?_map] at h1
    obtain ⟨m, hm, rfl⟩ := Option.map_eq_some_iff.1 h1
    simp only [shiftGroup, List.getElem?_map] at hr
    obtain ⟨row, hrow, rfl⟩ := Option.map_eq_some_iff.1 hr
    refine ⟨k, m, e, row, hm, ?_, ⟨g, j, grp, h3, hrow, h5⟩, by rw [h2]; rfl⟩
    rw [hmap] at h6; exact h6
  · rintro ⟨k, m, e, row, hm, hE, ⟨g, j, grp, h3, hrow, h5⟩, rfl⟩
    have hk : (ms.map FMesh.groups)[k]? = some m.groups := by simp [hm]
    obtain ⟨G, b, h6, h7, h8⟩ := single_image hlen hk h3 h5 (by rw [hmap]; exact hE)
    refine ⟨G, j, _, h7, ?_, h8⟩
    simp [shiftGroup, hrow, h6]

/-- C14, nodal adjacency: two elements of the merged mesh share a vertex exactly when they come
from one input and share a vertex there. -/
theorem C14_merge_share_vertex {ms : List (FMesh N P A)} (hok : ∀ m ∈ ms, ∃ vs, m.OK vs)
    {single : Bool} {M : FMesh N P A} (h : mergeDisjoint ms single = .ok M) (E E' : Nat) :
    ShareVertex M.groups E E' ↔ ∃ (k : Nat) (m : FMesh N P A) (e e' : Nat), ms[k]? = some m ∧
      MergedElem ms k e E ∧ MergedElem ms k e' E' ∧ ShareVertex m.groups e e' := by
  obtain ⟨vss, hv, _, _, hg, _⟩ := mergeDisjoint_ok h
  obtain ⟨hlen, hb⟩ := basesOK_merge hv hok
  have hr := hasRow_merge hok hv hg
  constructor
  · rintro ⟨row, row', v, h1, h2, h3, h4⟩
    obtain ⟨k, m, e, r, hk, hE, hrow, rfl⟩ := (hr _ _).1 h1
    obtain ⟨k', m', e', r', hk', hE', hrow', rfl⟩ := (hr _ _).1 h2
    obtain ⟨w, hw, rfl⟩ := List.mem_map.1 h3
    obtain ⟨w', hw', heq⟩ := List.mem_map.1 h4
    have hr1 := hrow
    have hr2 := hrow'
    obtain ⟨g, i, grp, ha, hc, _⟩ := hr1
    obtain ⟨g', i', grp', ha', hc', _⟩ := hr2
    obtain ⟨rfl, rfl⟩ := hb.apart k' k m'.groups m.groups grp' grp r' r w' w (by simp [hk'])
      (by simp [hk]) (List.mem_of_getElem? ha') (List.mem_of_getElem? ha)
      (List.mem_of_getElem? hc') (List.mem_of_getElem? hc) hw' hw heq
    rw [hk] at hk'; cases hk'
    exact ⟨k', m, e, e', hk, hE, hE', r, r', w', hrow, hrow', hw, hw'⟩
  · rintro ⟨k, m, e, e', hk, hE, hE', r, r', w, h1, h2, h3, h4⟩
    exact ⟨_, _, w + (vertBases 0 (vss.map List.length))[k]?.getD 0,
      (hr _ _).2 ⟨k, m, e, r, hk, hE, h1, rfl⟩, (hr _ _).2 ⟨k, m, e', r', hk, hE', h2, rfl⟩,
      List.mem_map.2 ⟨w, h3, rfl⟩, List.mem_map.2 ⟨w, h4, rfl⟩⟩

/-- C14, nodal adjacency as accessed: if it is available on the merged mesh, the row of element `E`
(element `e` of input `k`) lists exactly the elements that are `e`'s nodal neighbours in input `k`,
each once, under their new numbers. -/
theorem C14_merge_nodal_rows_partial {ms : List (FMesh N P A)} (hok : ∀ m ∈ ms, ∃ vs, m.OK vs)
    {iter : List Nat → List Nat} (hiter : ∀ s, (iter s).Perm s)
    {single : Bool} {M : FMesh N P A} (h : mergeDisjoint ms single = .ok M)
    {starts nbrs : List Nat} (hacc : M.nodal iter = .ok (starts, nbrs))
    {k e E : Nat} (hE : MergedElem ms k e E) :
    ∃ m row, ms[k]? = some m ∧ csrRow starts nbrs E = some row ∧ row.Nodup ∧
      ∀ E', E' ∈ row ↔ ∃ e', e' ≠ e ∧ MergedElem ms k e' E' ∧ ShareVertex m.groups e e' := by
  obtain ⟨vss, hv, hverts, _, hg, hlazy⟩ := mergeDisjoint_ok h
  have hcomp : nodalAdjacency iter ((M.vertices.getD []).length) M.groups = some (starts, nbrs) := by
    unfold FMesh.nodal at hacc
    rw [hlazy] at hacc
    unfold LazyMesh.make accessSlot at hacc
    by_cases ha : (ms.any fun m => decide (m.lazy.nodal ≠ .missing)) = true
    · simp only [ha, if_true] at hacc
      split at hacc <;> simp_all
    · simp only [ha, if_true] at hacc
      by_cases hc : (ms.all fun m => m.lazy.conforming == some true) = true
      · rw [hc] at hacc
        cases hn : nodalAdjacency iter ((M.vertices.getD []).length) M.groups with
        | none => simp [hn] at hacc
        | some r => simp [hn] at hacc; rw [hacc]
      · simp [hc] at hacc
  obtain ⟨_, hspec⟩ := C04_nodal_adjacency_is_vertex_sharing hiter hcomp
  have hlt : E < M.size := ((C14_merge_elements hok h).1 E).2 ⟨k, e, hE⟩
  obtain ⟨row, h1, h2, h3⟩ := hspec E hlt
  have hkl := isGlobalNr_lt hE
  rw [List.length_map] at hkl
  have hk := List.getElem?_eq_getElem hkl
  refine ⟨ms[k], row, hk, h1, h2, fun E' => ?_⟩
  rw [h3, C14_merge_share_vertex hok h]
  constructor
  · rintro ⟨hne, k', m, e1, e', hk', hE1, hE', hs⟩
    obtain ⟨rfl, rfl⟩ := (C01_numbering_bijective _ _).2 _ _ _ _ hE hE1
    rw [hk] at hk'; cases hk'
    refine ⟨e', ?_, hE', hs⟩
    rintro rfl
    obtain ⟨n, a1, a2, a3⟩ := hE1
    obtain ⟨n', b1, b2, b3⟩ := hE'
    exact hne (by omega)
  · rintro ⟨e', hne, hE', hs⟩
    refine ⟨?_, k, _, e, e', hk, hE, hE', hs⟩
    rintro rfl
    exact hne ((C01_numbering_bijective _ _).2 _ _ _ _ hE' hE).2

/-- C14: when all inputs are known to be conforming and none has facial adjacency computed, supplied
or disabled, the merged mesh's facial adjacency is the one `C14_merge_facial_partial` describes; in every
other case it is unavailable. -/
theorem C14_merge_facial_available {ms : List (FMesh N P A)} (aff0 : A)
    {single : Bool} {M : FMesh N P A} (h : mergeDisjoint ms single = .ok M) :
    ((∀ m ∈ ms, m.lazy.conforming = some true ∧ m.lazy.facial = .missing) →
      M.facial aff0 = .ok (computeFacial aff0 M.groups [] [])) ∧
    (¬ (∀ m ∈ ms, m.lazy.conforming = some true ∧ m.lazy.facial = .missing) →
      M.facial aff0 = .unavailable) := by
  obtain ⟨vss, hv, hverts, _, hg, hlazy⟩ := mergeDisjoint_ok h
  unfold FMesh.facial
  rw [hlazy]
  by_cases hc : (ms.all fun m => m.lazy.conforming == some true) = true
  · have hc' : ∀ m ∈ ms, m.lazy.conforming = some true := by
      intro m hm; simpa using List.all_eq_true.1 hc m hm
    by_cases ha : (ms.any fun m => !(match m.lazy.facial with | .missing => true | _ => false)) = true
    · refine ⟨fun hall => ?_, fun _ => ?_⟩
      · obtain ⟨m, hm, hx⟩ := List.any_eq_true.1 ha
        rw [(hall m hm).2] at hx; simp at hx
      · simp [LazyMesh.make, accessSlot, hc, ha]
    · refine ⟨fun _ => ?_, fun hn => ?_⟩
      · simp [LazyMesh.make, accessSlot, hc, ha]
      · exfalso
        apply hn
        intro m hm
        refine ⟨hc' m hm, ?_⟩
        by_contra hx
        apply ha
        refine List.any_eq_true.2 ⟨m, hm, ?_⟩
        cases hs : m.lazy.facial <;> simp_all
  · refine ⟨fun hall => ?_, fun _ => ?_⟩
    · exact absurd (List.all_eq_true.2 fun m hm => by simp [(hall m hm).1]) hc
    · rw [Bool.not_eq_true] at hc
      rw [hc]
      by_cases ha : (ms.any fun m => !(match m.lazy.facial with | .missing => true | _ => false)) =
        true
      · rw [if_pos ha]; simp [LazyMesh.make, accessSlot]
      · rw [if_neg ha]; simp [LazyMesh.make, accessSlot]

/-! ### Examples -/

/-- Two triangles with a common edge, on four points. -/
def exMergeA : FMesh (List (Nat × Nat)) (Nat × Nat) Nat where
  ambientDim := 2
  vertices := some [(0, 0), (1, 0), (0, 1), (1, 1)]
  groups := [{ kind := 7, fvi := [[0, 1], [1, 2], [2, 0]], vertexIndices := [[0, 1, 2], [1, 3, 2]],
               nodes := [[(0, 0), (1, 0), (0, 1)], [(1, 0), (1, 1), (0, 1)]] }]
  lazy := ⟨some true, .missing, .missing⟩

/-- One triangle and, in a group of its own, one more. -/
def exMergeB : FMesh (List (Nat × Nat)) (Nat × Nat) Nat where
  ambientDim := 2
  vertices := some [(5, 5), (6, 5), (5, 6), (6, 6)]
  groups := [{ kind := 7, fvi := [[0, 1], [1, 2], [2, 0]], vertexIndices := [[0, 1, 2]],
               nodes := [[(5, 5), (6, 5), (5, 6)]] },
             { kind := 7, fvi := [[0, 1], [1, 2], [2, 0]], vertexIndices := [[1, 3, 2]],
               nodes := [[(6, 5), (6, 6), (5, 6)]] }]
  lazy := ⟨some true, .missing, .missing⟩

theorem exMerge_ok : ∀ m ∈ [exMergeA, exMergeB], ∃ vs, m.OK vs := by
  have h : ∀ m ∈ [exMergeA, exMergeB],
      (∀ g ∈ m.groups, (g.vertexIndices.length = g.nelements ∧
        ∀ row ∈ g.vertexIndices, ∀ ref ∈ g.fvi, ∀ k ∈ ref, k < row.length)) ∧
      (∀ g ∈ m.groups, ∀ row ∈ g.vertexIndices, ∀ v ∈ row, v < 4) ∧
      (∀ g ∈ m.groups, ∀ ref ∈ g.fvi, ref ≠ []) := by decide
  intro m hm
  obtain ⟨h1, h2, h3⟩ := h m hm
  simp only [List.mem_cons, List.not_mem_nil, or_false] at hm
  rcases hm with rfl | rfl
  · exact ⟨_, rfl, h1, h2, h3⟩
  · exact ⟨_, rfl, h1, h2, h3⟩

/-- Checking `AtMostTwoSides` by computation. -/
theorem atMostTwo_of_check {groups : List (ElGroup N)}
    (key : ∀ f ∈ allFaceIds groups, ∀ f' ∈ allFaceIds groups, ∀ f'' ∈ allFaceIds groups,
      ((faceVerts groups f).getD []).isPerm ((faceVerts groups f').getD []) = true →
      ((faceVerts groups f).getD []).isPerm ((faceVerts groups f'').getD []) = true →
      f ≠ f' → f ≠ f'' → f' = f'') : AtMostTwoSides groups := by
  intro f f' f'' h h' h'' ⟨a, b, ha, hb, hab⟩ ⟨c, d, hc, hd, hcd⟩ n1 n2
  apply key f (mem_allFaceIds.2 h) f' (mem_allFaceIds.2 h') f'' (mem_allFaceIds.2 h'') _ _ n1 n2
  · simpa [ha, hb, List.isPerm_iff] using hab
  · simpa [hc, hd, List.isPerm_iff] using hcd

/-- The hypotheses of the C14 theorems hold for a concrete pair, in both modes. -/
example : (∀ m ∈ [exMergeA, exMergeB], ∃ vs, m.OK vs) ∧
    (∀ m ∈ [exMergeA, exMergeB], ∀ m' ∈ [exMergeA, exMergeB], ∀ g ∈ m.groups, ∀ g' ∈ m'.groups,
      g.kind = g'.kind → g.fvi = g'.fvi) ∧
    (∀ m ∈ [exMergeA, exMergeB], AtMostTwoSides m.groups) ∧
    ((mergeDisjoint [exMergeA, exMergeB] false).toOption.map fun M =>
        (M.groups.map ElGroup.vertexIndices, M.vertices.map List.length)) =
      some ([[[0, 1, 2], [1, 3, 2]], [[4, 5, 6]], [[5, 7, 6]]], some 8) ∧
    ((mergeDisjoint [exMergeA, exMergeB] true).toOption.map fun M =>
        M.groups.map ElGroup.vertexIndices) =
      some [[[0, 1, 2], [1, 3, 2], [4, 5, 6], [5, 7, 6]]] :=
  ⟨exMerge_ok, by decide, by
    intro m hm
    simp only [List.mem_cons, List.not_mem_nil, or_false] at hm
    rcases hm with rfl | rfl <;> exact atMostTwo_of_check (by decide +kernel), by decide, by decide⟩

/-- ... and the merged mesh's nodal adjacency can be accessed. -/
example : ∃ M r, mergeDisjoint [exMergeA, exMergeB] false = .ok M ∧ M.nodal id = .ok r :=
  ⟨_, _, rfl, rfl⟩

/-- C14 as a whole fails: once an input's facial adjacency has been accessed (or was supplied), the
merged mesh has none, although that of the same inputs before the access would be available. -/
theorem C14_adjacency_lost_counterexample :
    (∃ M, mergeDisjoint [exMergeA, exMergeB] false = .ok M ∧
      M.facial 0 = .ok (computeFacial 0 M.groups [] [])) ∧
    (∃ M, mergeDisjoint [{ exMergeA with lazy := { exMergeA.lazy with facial :=
        (accessSlot exMergeA.lazy.conforming (some (computeFacial 0 exMergeA.groups [] []))
          exMergeA.lazy.facial).2 } }, exMergeB] false = .ok M ∧ M.facial 0 = .unavailable) := by
  constructor
  · obtain ⟨M, hM⟩ : ∃ M, mergeDisjoint [exMergeA, exMergeB] false = .ok M := ⟨_, rfl⟩
    refine ⟨M, hM, (C14_merge_facial_available 0 hM).1 ?_⟩
    intro m hm
    simp only [List.mem_cons, List.not_mem_nil, or_false] at hm
    rcases hm with rfl | rfl <;> exact ⟨rfl, rfl⟩
  · generalize hA : ({ exMergeA with lazy := { exMergeA.lazy with facial :=
        (accessSlot exMergeA.lazy.conforming (some (computeFacial 0 exMergeA.groups [] []))
          exMergeA.lazy.facial).2 } } : FMesh _ _ _) = A
    obtain ⟨M, hM⟩ : ∃ M, mergeDisjoint [A, exMergeB] false = .ok M := by subst hA; exact ⟨_, rfl⟩
    refine ⟨M, hM, (C14_merge_facial_available 0 hM).2 ?_⟩
    intro h
    have := (h A List.mem_cons_self).2
    subst hA
    simp [accessSlot, exMergeA] at this

/-- C14: when `merge_disjoint_meshes` succeeds: there is a mesh, all have vertices and the same
ambient dimension, and for a single group there is a group and all groups are of one kind. -/
theorem C14_merge_defined (ms : List (FMesh N P A)) (single : Bool) :
    (∃ M, mergeDisjoint ms single = .ok M) ↔
      ms ≠ [] ∧ (∀ m ∈ ms, ∀ m' ∈ ms, m.ambientDim = m'.ambientDim) ∧
      (∀ m ∈ ms, m.vertices.isSome) ∧
      (single = true → (∃ m ∈ ms, m.groups ≠ []) ∧
        ∀ m ∈ ms, ∀ m' ∈ ms, ∀ g ∈ m.groups, ∀ g' ∈ m'.groups, g.kind = g'.kind) := by
  cases ms with
  | nil => simp [mergeDisjoint]
  | cons m0 rest =>
    have hdim : (rest.any fun m => m.ambientDim != m0.ambientDim) = false ↔
        ∀ m ∈ m0 :: rest, ∀ m' ∈ m0 :: rest, m.ambientDim = m'.ambientDim := by
      rw [List.any_eq_false]
      constructor
      · intro h
        have h' : ∀ m ∈ m0 :: rest, m.ambientDim = m0.ambientDim := by
          intro m hm
          rcases List.mem_cons.1 hm with rfl | hm
          · rfl
          · simpa using h m hm
        intro m hm m' hm'
        rw [h' m hm, h' m' hm']
      · intro h m hm
        simpa using h m (List.mem_cons_of_mem _ hm) m0 List.mem_cons_self
    have hsing : ∀ bases : List Nat,
        ((mergeSingle ((m0 :: rest).map FMesh.groups) bases).isSome ↔
        (∃ m ∈ m0 :: rest, m.groups ≠ []) ∧
        ∀ m ∈ m0 :: rest, ∀ m' ∈ m0 :: rest, ∀ g ∈ m.groups, ∀ g' ∈ m'.groups,
          g.kind = g'.kind) := by
      intro bases
      unfold mergeSingle
      split
      · rename_i hnil
        simp only [Option.isSome_none, Bool.false_eq_true, false_iff, not_and]
        rintro ⟨m, hm, hne⟩
        exfalso
        refine hne (List.eq_nil_iff_forall_not_mem.2 fun g hg => ?_)
        have : g ∈ ((m0 :: rest).map FMesh.groups).flatten :=
          List.mem_flatten.2 ⟨_, List.mem_map_of_mem hm, hg⟩
        rw [hnil] at this
        simp at this
      · rename_i ref gs hcons
        have hmem : ∀ g, g ∈ ref :: gs ↔ ∃ m ∈ m0 :: rest, g ∈ m.groups := by
          intro g
          rw [← hcons]
          simp
        split
        · rename_i hall
          simp only [Option.isSome_some, true_iff]
          have hk : ∀ g ∈ ref :: gs, g.kind = ref.kind := by
            intro g hg
            rcases List.mem_cons.1 hg with rfl | hg
            · rfl
            · simpa using List.all_eq_true.1 hall g hg
          constructor
          · obtain ⟨m, hm, hg⟩ := (hmem ref).1 List.mem_cons_self
            exact ⟨m, hm, List.ne_nil_of_mem hg⟩
          · intro m hm m' hm' g hg g' hg'
            rw [hk g ((hmem g).2 ⟨m, hm, hg⟩), hk g' ((hmem g').2 ⟨m', hm', hg'⟩)]
        · rename_i hall
          simp only [Option.isSome_none, Bool.false_eq_true, false_iff, not_and]
          intro _ hk
          refine hall (List.all_eq_true.2 fun g hg => ?_)
          obtain ⟨m, hm, h1⟩ := (hmem g).1 (List.mem_cons_of_mem _ hg)
          obtain ⟨m', hm', h2⟩ := (hmem ref).1 List.mem_cons_self
          simpa using hk m hm m' hm' g h1 ref h2
    rw [← hdim]
    unfold mergeDisjoint
    cases hd : (rest.any fun m => m.ambientDim != m0.ambientDim) with
    | true =>
      simp only [hd, if_true]
      simp
    | false =>
      simp only [hd, Bool.false_eq_true, if_false]
      cases hv : (m0 :: rest).mapM FMesh.vertices with
      | none =>
        simp only [reduceCtorEq, exists_false, false_iff]
        rintro ⟨_, _, hall, _⟩
        obtain ⟨l, hl⟩ := mapM_isSome_of fun m hm => Option.isSome_iff_exists.1 (hall m hm)
        rw [hl] at hv
        simp at hv
      | some vss =>
        have hall : ∀ m ∈ m0 :: rest, m.vertices.isSome := by
          intro m hm
          obtain ⟨i, hi⟩ := List.mem_iff_getElem?.1 hm
          obtain ⟨b, _, hb⟩ := (mapM_getElem?_some hv).2 i m hi
          simp [hb]
        simp only
        cases single with
        | false => exact ⟨fun _ => ⟨by simp, by simp, hall, by simp⟩, fun _ => ⟨_, rfl⟩⟩
        | true =>
          have hs := hsing (vertBases 0 (vss.map List.length))
          simp only [if_true]
          cases hg : mergeSingle ((m0 :: rest).map FMesh.groups)
              (vertBases 0 (vss.map List.length)) with
          | none =>
            rw [hg] at hs
            simp only [reduceCtorEq, exists_false, false_iff]
            rintro ⟨_, _, _, h⟩
            exact absurd (hs.2 (h (by simp))) (by simp)
          | some gs =>
            rw [hg] at hs
            exact ⟨fun _ => ⟨by simp, by simp, hall, fun _ => hs.1 rfl⟩, fun _ => ⟨_, rfl⟩⟩

/-- C14: the merged mesh has the inputs' ambient dimension and is conforming exactly if all inputs
are; otherwise it is known not to be. -/
theorem C14_merge_conforming {ms : List (FMesh N P A)} {single : Bool} {M : FMesh N P A}
    (h : mergeDisjoint ms single = .ok M) :
    (∀ m ∈ ms, m.ambientDim = M.ambientDim) ∧
    (M.lazy.conforming = some true ↔ ∀ m ∈ ms, m.lazy.conforming = some true) ∧
    M.lazy.conforming ≠ none := by
  obtain ⟨vss, hv, hverts, hdim, hg, hlazy⟩ := mergeDisjoint_ok h
  refine ⟨hdim, ?_, ?_⟩ <;> rw [hlazy] <;> simp [LazyMesh.make]

/-- Two conforming meshes of one kind merge into a single conforming group. -/
example : ∃ M, mergeDisjoint [exMergeA, exMergeB] true = .ok M ∧
    M.lazy.conforming = some true ∧ M.ambientDim = exMergeA.ambientDim := by
  obtain ⟨M, hM⟩ := (C14_merge_defined [exMergeA, exMergeB] true).2
    (by simp [exMergeA, exMergeB])
  refine ⟨M, hM, (C14_merge_conforming hM).2.1.2 ?_, ((C14_merge_conforming hM).1 _ ?_).symm⟩
  · simp [exMergeA, exMergeB]
  · simp

end Meshmode
