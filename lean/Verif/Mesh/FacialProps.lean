import Verif.Mesh.FacialLemmas

/-!
# Facial adjacency: properties C02, C03, C05, C06
-/
namespace Meshmode

variable {N A : Type}

/-! ## Specification -/

/-- Row "`f` has neighbour `f'`" is present in the facial adjacency groups `fags`.
(Specification or proof vocabulary, no code.) -/
def IsNeighbor (fags : List (List (Fag A))) (f f' : FaceId) : Prop :=
  ∃ l rows aff, fags[f.grp]? = some l ∧ .interior f.grp f'.grp rows aff ∈ l ∧
    ⟨f.el, f.face, f'.el, f'.face⟩ ∈ rows

/-- Number of interior adjacency rows of the face `f`.
(Specification or proof vocabulary, no code.) -/
def interiorRowCount (fags : List (List (Fag A))) (f : FaceId) : Nat :=
  (((fags[f.grp]?).getD []).map fun fg =>
    fg.interiorRows.countP fun r => r.el = f.el ∧ r.face = f.face).sum

/-- Face `f` is listed under boundary tag `t`. (Specification or proof vocabulary, no code.) -/
def InBoundary (fags : List (List (Fag A))) (t : BTag) (f : FaceId) : Prop :=
  ∃ l fg fs, fags[f.grp]? = some l ∧ fg ∈ l ∧ fg.bdry? = some (t, fs) ∧ ⟨f.el, f.face⟩ ∈ fs

/-- Two faces have the same vertices (as lists up to order; for faces without repeated vertices:
the same vertex set). (Specification or proof vocabulary, no code.) -/
def SameVertices (groups : List (ElGroup N)) (f f' : FaceId) : Prop :=
  ∃ vs vs', faceVerts groups f = some vs ∧ faceVerts groups f' = some vs' ∧ vs.Perm vs'

/-- No three different faces have the same vertices.
(Specification or proof vocabulary, no code.) -/
def AtMostTwoSides (groups : List (ElGroup N)) : Prop :=
  ∀ f f' f'', IsFace groups f → IsFace groups f' → IsFace groups f'' →
    SameVertices groups f f' → SameVertices groups f f'' → f ≠ f' → f ≠ f'' → f' = f''

/-- `btags` enumerates the tags of the dictionary (in some order, without repetition).
(Specification or proof vocabulary, no code.) -/
def EnumeratesTags (dict : List (List Nat × List BTag)) (btags : List BTag) : Prop :=
  btags.Nodup ∧ ∀ t, t ∈ btags ↔ ∃ kv ∈ dict, t ∈ kv.2

/-! ## Lemmas tying the data structure to the pairs -/

theorem meshFacePairs_props {groups : List (ElGroup N)} (hwf : ∀ g ∈ groups, g.WF)
    {f f' : FaceId} (h : (f, f') ∈ meshFacePairs groups) :
    IsFace groups f ∧ IsFace groups f' ∧ f ≠ f' ∧ SameVertices groups f f' ∧
      (f', f) ∈ meshFacePairs groups := by
  have hsymm := faceIdPairs_symm h
  rw [meshFacePairs, mem_faceIdPairs] at h
  obtain ⟨i, j, hp, hi, hj⟩ := h
  have hf : IsFace groups f := mem_allFaceIds.1 (List.mem_of_getElem? hi)
  have hf' : IsFace groups f' := mem_allFaceIds.1 (List.mem_of_getElem? hj)
  obtain ⟨vs, hvs⟩ := faceVerts_isSome hwf hf
  obtain ⟨vs', hvs'⟩ := faceVerts_isSome hwf hf'
  have hkey : faceKey groups id f = faceKey groups id f' ∧ i ≠ j := by
    rcases hp with hp | hp
    · obtain ⟨hlt, a, b, ha, hb, hk⟩ := matchFaces_spec hp
      rw [hi] at ha; rw [hj] at hb; cases ha; cases hb
      exact ⟨hk, by omega⟩
    · obtain ⟨hlt, a, b, ha, hb, hk⟩ := matchFaces_spec hp
      rw [hj] at ha; rw [hi] at hb; cases ha; cases hb
      exact ⟨hk.symm, by omega⟩
  refine ⟨hf, hf', ?_, ⟨vs, vs', hvs, hvs', ?_⟩, hsymm⟩
  · rintro rfl
    exact hkey.2 ((List.getElem?_inj (List.getElem?_eq_some_iff.1 hi).1
      (nodup_allFaceIds groups)).1 (hi.trans hj.symm))
  · simpa using (faceKey_eq_iff hvs hvs').1 hkey.1

theorem meshFacePairs_exists {groups : List (ElGroup N)} {f f' : FaceId}
    (hf : IsFace groups f) (hf' : IsFace groups f') (hne : f ≠ f')
    (hv : SameVertices groups f f') : ∃ f'', (f, f'') ∈ meshFacePairs groups := by
  obtain ⟨vs, vs', hvs, hvs', hperm⟩ := hv
  obtain ⟨i, hi⟩ := List.mem_iff_getElem?.1 (mem_allFaceIds.2 hf)
  obtain ⟨j, hj⟩ := List.mem_iff_getElem?.1 (mem_allFaceIds.2 hf')
  have hij : i ≠ j := by
    rintro rfl
    rw [hi] at hj; exact hne (Option.some.inj hj)
  have hk : faceKey groups id f = faceKey groups id f' :=
    (faceKey_eq_iff hvs hvs').2 (by simpa using hperm)
  obtain ⟨m, hm⟩ := matchFaces_exists hi hj hij hk
  have hmf : ∃ f'', (allFaceIds groups)[m]? = some f'' := by
    rcases hm with hm | hm
    · obtain ⟨_, _, b, _, hb, _⟩ := matchFaces_spec hm; exact ⟨b, hb⟩
    · obtain ⟨_, a, _, ha, _, _⟩ := matchFaces_spec hm; exact ⟨a, ha⟩
  obtain ⟨f'', hf''⟩ := hmf
  exact ⟨f'', mem_faceIdPairs.2 ⟨i, m, hm, hi, hf''⟩⟩

theorem nodup_meshFacePairs (groups : List (ElGroup N)) : (meshFacePairs groups).Nodup :=
  nodup_faceIdPairs (nodup_allFaceIds groups) nodup_matchFaces
    fun ⟨_, _⟩ hp => (matchFaces_spec hp).1

theorem getElem?_zipIdx_map {α β : Type} (l : List α) (f : α × Nat → β) (i : Nat) :
    (l.zipIdx.map f)[i]? = l[i]?.map fun a => f (a, i) := by
  simp [List.getElem?_map, List.getElem?_zipIdx]; rfl

theorem completeFacial_getElem? (fags : List (List (Fag A))) (i : Nat) :
    (completeFacial fags)[i]? = fags[i]?.map (completeGroup i) := by
  exact getElem?_zipIdx_map _ _ _

theorem rawFacial_getElem? (aff0 : A) (groups : List (ElGroup N))
    (dict : List (List Nat × List BTag)) (btags : List BTag) (i : Nat) :
    (rawFacial aff0 groups dict btags)[i]? = groups[i]?.map fun g =>
      interiorGroups aff0 (meshFacePairs groups) i
        ++ boundaryGroups groups dict btags (meshFacePairs groups) i g := by
  exact getElem?_zipIdx_map _ _ _

/-- Completion only appends boundary groups. -/
theorem mem_completeGroup_interior {igrp : Nat} {fags : List (Fag A)} {a b : Nat}
    {rows : List AdjRow} {aff : A} :
    Fag.interior a b rows aff ∈ completeGroup igrp fags ↔ Fag.interior a b rows aff ∈ fags := by
  unfold completeGroup
  simp only [List.mem_append]
  constructor
  · rintro (((h | h) | h) | h)
    · exact h
    all_goals (split at h <;> simp at h)
  · intro h; exact Or.inl (Or.inl (Or.inl h))

theorem mem_interiorGroups {aff0 : A} {fpairs : List (FaceId × FaceId)} {igrp a b : Nat}
    {rows : List AdjRow} {aff : A} :
    Fag.interior a b rows aff ∈ interiorGroups aff0 fpairs igrp ↔
      a = igrp ∧ aff = aff0 ∧ (∃ p ∈ fpairs, p.1.grp = igrp ∧ p.2.grp = b) ∧
      rows = ((fpairs.filter fun p => p.1.grp == igrp).filter fun p => p.2.grp == b).map
        fun p => ⟨p.1.el, p.1.face, p.2.el, p.2.face⟩ := by
  simp only [interiorGroups, List.mem_map, mem_npUnique, List.mem_filter, beq_iff_eq,
    Fag.interior.injEq]
  constructor
  · rintro ⟨c, ⟨p, ⟨hp, hp1⟩, rfl⟩, h1, h2, h3, h4⟩
    exact ⟨h1.symm, h4.symm, ⟨p, hp, hp1, h2⟩, by rw [← h3, h2]⟩
  · rintro ⟨h1, h2, ⟨p, hp, hp1, hp2⟩, h3⟩
    exact ⟨b, ⟨p, ⟨hp, hp1⟩, hp2⟩, h1.symm, rfl, h3.symm, h2.symm⟩

theorem boundaryGroups_not_interior {groups : List (ElGroup N)}
    {dict : List (List Nat × List BTag)} {btags : List BTag} {fpairs : List (FaceId × FaceId)}
    {igrp : Nat} {g : ElGroup N} {a b : Nat} {rows : List AdjRow} {aff : A} :
    Fag.interior a b rows aff ∉ boundaryGroups groups dict btags fpairs igrp g := by
  unfold boundaryGroups
  simp only
  split
  · simp
  · simp only [List.mem_append, List.mem_filterMap, not_or, not_exists, not_and]
    constructor
    · intro t _
      split <;> simp
    · split <;> simp

theorem isNeighbor_computeFacial {groups : List (ElGroup N)} (hwf : ∀ g ∈ groups, g.WF)
    (aff0 : A) (dict : List (List Nat × List BTag)) (btags : List BTag) {f f' : FaceId} :
    IsNeighbor (computeFacial aff0 groups dict btags) f f' ↔ (f, f') ∈ meshFacePairs groups := by
  unfold IsNeighbor computeFacial
  simp only [completeFacial_getElem?, rawFacial_getElem?, Option.map_map]
  constructor
  · rintro ⟨l, rows, aff, hl, hm, hr⟩
    rw [Option.map_eq_some_iff] at hl
    obtain ⟨g, hg, rfl⟩ := hl
    simp only [Function.comp_apply] at hm
    rw [mem_completeGroup_interior, List.mem_append] at hm
    rcases hm with hm | hm
    · rw [mem_interiorGroups] at hm
      obtain ⟨_, _, _, rfl⟩ := hm
      simp only [List.mem_map, List.mem_filter, beq_iff_eq, AdjRow.mk.injEq, Prod.exists] at hr
      obtain ⟨a, b, ⟨⟨hab, h1⟩, h2⟩, h3, h4, h5, h6⟩ := hr
      have : a = f := by cases a; cases f; simp_all
      have : b = f' := by cases b; cases f'; simp_all
      subst a; subst b; exact hab
    · exact absurd hm boundaryGroups_not_interior
  · intro h
    obtain ⟨hf, hf', _, _, _⟩ := meshFacePairs_props hwf h
    obtain ⟨g, hg, _, _⟩ := hf
    refine ⟨_, ((meshFacePairs groups).filter fun p => p.1.grp == f.grp).filter
      (fun p => p.2.grp == f'.grp) |>.map fun p => ⟨p.1.el, p.1.face, p.2.el, p.2.face⟩, aff0,
      by rw [hg]; rfl, ?_, ?_⟩
    · simp only [Function.comp_apply]
      rw [mem_completeGroup_interior, List.mem_append]
      left
      rw [mem_interiorGroups]
      exact ⟨rfl, rfl, ⟨_, h, rfl, rfl⟩, rfl⟩
    · simp only [List.mem_map, List.mem_filter, beq_iff_eq, AdjRow.mk.injEq, Prod.exists]
      exact ⟨f, f', ⟨⟨h, rfl⟩, rfl⟩, rfl, rfl, rfl, rfl⟩

/-! ## C02 -/

/-- C02: computed facial adjacency is symmetric, relates different faces, both faces exist, and
they have the same vertices. -/
theorem C02_facial_adjacency_symmetric {groups : List (ElGroup N)} (hwf : ∀ g ∈ groups, g.WF)
    (aff0 : A) (dict : List (List Nat × List BTag)) (btags : List BTag) (f f' : FaceId)
    (h : IsNeighbor (computeFacial aff0 groups dict btags) f f') :
    IsNeighbor (computeFacial aff0 groups dict btags) f' f ∧ f ≠ f' ∧
      IsFace groups f ∧ IsFace groups f' ∧ SameVertices groups f f' := by
  rw [isNeighbor_computeFacial hwf] at *
  obtain ⟨h1, h2, h3, h4, h5⟩ := meshFacePairs_props hwf h
  exact ⟨h5, h3, h1, h2, h4⟩

/-- C02, docstring of `_match_faces_by_vertices`: a match consists of two face numbers, the first
being the one that occurs first in the list of faces, whose (mapped) vertices agree; conversely
every face that has a partner is in some match.  For any selection of faces and vertex map. -/
theorem C02_match_faces {groups : List (ElGroup N)} (ids : List FaceId) (vmap : Nat → Nat)
    (vs : Nat → List Nat)
    (hvs : ∀ i f, ids[i]? = some f → faceVerts groups f = some (vs i)) :
    (∀ i j, (i, j) ∈ matchFaces groups ids vmap →
      i < j ∧ j < ids.length ∧ ((vs i).map vmap).Perm ((vs j).map vmap)) ∧
    (∀ i j, i < ids.length → j < ids.length → i ≠ j → ((vs i).map vmap).Perm ((vs j).map vmap) →
      ∃ m, (i, m) ∈ matchFaces groups ids vmap ∨ (m, i) ∈ matchFaces groups ids vmap) := by
  constructor
  · intro i j h
    obtain ⟨hlt, f, f', hi, hj, hk⟩ := matchFaces_spec h
    exact ⟨hlt, (List.getElem?_eq_some_iff.1 hj).1,
      (faceKey_eq_iff (hvs i f hi) (hvs j f' hj)).1 hk⟩
  · intro i j hi hj hne hp
    have h1 := List.getElem?_eq_getElem hi
    have h2 := List.getElem?_eq_getElem hj
    exact matchFaces_exists h1 h2 hne ((faceKey_eq_iff (hvs _ _ h1) (hvs _ _ h2)).2 hp)

/-! ## C03 -/

theorem sum_countP_unique {α : Type} (l : List α) (key : α → Nat) (p : α → Bool) (ks : List Nat)
    (hks : ks.Nodup) (hmem : ∀ a ∈ l, key a ∈ ks) :
    (ks.map fun k => (l.filter fun a => key a == k).countP p).sum = l.countP p := by
  induction l with
  | nil => simp
  | cons a l ih =>
    rw [List.countP_cons, ← ih fun b hb => hmem b (List.mem_cons_of_mem _ hb)]
    have ha := hmem a (by simp)
    have hstep : ∀ k, ((a :: l).filter fun a => key a == k).countP p =
        (l.filter fun a => key a == k).countP p + if key a = k then (if p a then 1 else 0) else 0 := by
      intro k
      by_cases h : key a = k <;> simp [h, List.countP_cons]
    simp only [hstep]
    clear hstep ih hmem
    induction ks with
    | nil => simp at ha
    | cons k ks ihk =>
      obtain ⟨hk1, hk2⟩ := List.nodup_cons.1 hks
      simp only [List.map_cons, List.sum_cons]
      by_cases hak : key a = k
      · have hrest : (ks.map fun k => (l.filter fun a => key a == k).countP p +
            if key a = k then (if p a then 1 else 0) else 0) =
            ks.map fun k => (l.filter fun a => key a == k).countP p := by
          apply List.map_congr_left
          intro k' hk'
          have : key a ≠ k' := by rintro rfl; rw [hak] at hk'; exact hk1 hk'
          simp [this]
        rw [hrest, if_pos hak]; omega
      · have hin : key a ∈ ks := by
          rcases List.mem_cons.1 ha with h | h
          · exact absurd h hak
          · exact h
        have := ihk hk2 hin
        rw [this, if_neg hak]; omega

theorem sum_map_interior_completeGroup (igrp : Nat) (fags : List (Fag A)) (F : Fag A → Nat)
    (hF : ∀ i t fs, F (.boundary i t fs) = 0) :
    ((completeGroup igrp fags).map F).sum = (fags.map F).sum := by
  unfold completeGroup
  simp only [List.map_append, List.sum_append]
  split <;> split <;> split <;> simp [hF]

theorem interiorGroups_count (aff0 : A) (fpairs : List (FaceId × FaceId)) (f : FaceId) :
    ((interiorGroups aff0 fpairs f.grp).map fun fg =>
      fg.interiorRows.countP fun r => decide (r.el = f.el ∧ r.face = f.face)).sum =
    fpairs.countP fun p => decide (p.1 = f) := by
  unfold interiorGroups
  simp only [List.map_map, Function.comp_def, Fag.interiorRows, List.countP_map]
  have := sum_countP_unique (fpairs.filter fun p => p.1.grp == f.grp)
    (fun p => p.2.grp) (fun p => decide (p.1.el = f.el ∧ p.1.face = f.face)) _
    (nodup_npUnique _) (by
      intro p hp
      rw [mem_npUnique, List.mem_map]
      exact ⟨p, hp, rfl⟩)
  rw [this, List.countP_filter]
  apply List.countP_congr
  intro p _
  have : p.1 = f ↔ p.1.grp = f.grp ∧ p.1.el = f.el ∧ p.1.face = f.face := by
    cases hp : p.1; cases f; simp
  simp only [this, Bool.and_eq_true, decide_eq_true_eq, beq_iff_eq]
  tauto

theorem boundaryGroups_count (groups : List (ElGroup N)) (dict : List (List Nat × List BTag))
    (btags : List BTag) (fpairs : List (FaceId × FaceId)) (i : Nat) (g : ElGroup N)
    (q : AdjRow → Bool) :
    ((boundaryGroups groups dict btags fpairs i g : List (Fag A)).map fun fg =>
      fg.interiorRows.countP q).sum = 0 := by
  rw [List.sum_eq_zero_iff_forall_eq_nat]
  intro x hx
  rw [List.mem_map] at hx
  obtain ⟨fg, hfg, rfl⟩ := hx
  cases fg with
  | interior a b rows aff => exact absurd hfg boundaryGroups_not_interior
  | boundary => rfl
  | interPart => rfl

theorem interiorRowCount_eq {groups : List (ElGroup N)} (aff0 : A)
    (dict : List (List Nat × List BTag)) (btags : List BTag) {f : FaceId}
    (hf : IsFace groups f) :
    interiorRowCount (computeFacial aff0 groups dict btags) f =
      (meshFacePairs groups).countP fun p => decide (p.1 = f) := by
  obtain ⟨g, hg, _, _⟩ := hf
  unfold interiorRowCount computeFacial
  rw [completeFacial_getElem?, rawFacial_getElem?, hg]
  rw [Option.map_some, Option.map_some, Option.getD_some,
    sum_map_interior_completeGroup _ _ _ (by intros; rfl), List.map_append, List.sum_append,
    boundaryGroups_count, Nat.add_zero, interiorGroups_count]

/-- Membership in a merged boundary. -/
theorem mem_mergeBoundary {fss : List (List ElFace)} {x : ElFace} :
    x ∈ mergeBoundary fss ↔ ∃ fs ∈ fss, x ∈ fs := by
  unfold mergeBoundary
  split
  · rename_i h
    rw [List.isEmpty_iff] at h
    subst h; simp
  · simp only [List.mem_flatMap, List.mem_map, List.mem_filter, List.mem_range, List.any_eq_true,
      decide_eq_true_eq]
    constructor
    · rintro ⟨f, hf, e, ⟨he, fs, hfs, hx⟩, rfl⟩; exact ⟨fs, hfs, hx⟩
    · rintro ⟨fs, hfs, hx⟩
      refine ⟨x.face, ?_, x.el, ⟨?_, fs, hfs, hx⟩, rfl⟩
      · apply Nat.lt_succ_of_le
        refine Nat.le_trans (le_foldl_max (Or.inl (List.mem_map.2 ⟨x, hx, rfl⟩)))
          (le_foldl_max (Or.inl (List.mem_map.2 ⟨fs, hfs, rfl⟩)))
      · apply Nat.lt_succ_of_le
        refine Nat.le_trans (le_foldl_max (Or.inl (List.mem_map.2 ⟨x, hx, rfl⟩)))
          (le_foldl_max (Or.inl (List.mem_map.2 ⟨fs, hfs, rfl⟩)))

/-- Order of merged boundary faces: by face, then element.
(Specification or proof vocabulary, no code.) -/
def faceMajorLt (a b : ElFace) : Prop := a.face < b.face ∨ (a.face = b.face ∧ a.el < b.el)

theorem pairwise_mergeBoundary (fss : List (List ElFace)) :
    (mergeBoundary fss).Pairwise faceMajorLt := by
  unfold mergeBoundary
  split
  · exact List.Pairwise.nil
  · rw [List.pairwise_flatMap]
    constructor
    · intro f _
      rw [List.pairwise_map]
      refine (List.pairwise_lt_range.filter _).imp ?_
      intro a b hab; right; exact ⟨rfl, hab⟩
    · refine List.pairwise_lt_range.imp ?_
      intro a b hab x hx y hy
      simp only [List.mem_map] at hx hy
      obtain ⟨_, _, rfl⟩ := hx
      obtain ⟨_, _, rfl⟩ := hy
      left; exact hab

theorem mem_unmatchedFaces {fpairs : List (FaceId × FaceId)} {igrp : Nat} {g : ElGroup N}
    {x : ElFace} : x ∈ unmatchedFaces fpairs igrp g ↔
      x.face < g.nfaces ∧ x.el < g.nelements ∧ ∀ f', (⟨igrp, x.el, x.face⟩, f') ∉ fpairs := by
  simp only [unmatchedFaces, List.mem_map, List.mem_filter, mem_groupFaceIds,
    Bool.not_eq_true', List.any_eq_false, beq_iff_eq, Prod.forall]
  constructor
  · rintro ⟨⟨a, b, c⟩, ⟨⟨rfl, h1, h2⟩, h3⟩, rfl⟩
    exact ⟨h1, h2, fun f' hf' => h3 _ _ hf' rfl⟩
  · rintro ⟨h1, h2, h3⟩
    exact ⟨⟨igrp, x.el, x.face⟩, ⟨⟨rfl, h1, h2⟩, fun a b hab e => h3 b (e ▸ hab)⟩, rfl⟩

/-- The union of all boundary groups built for a group is exactly the unmatched faces. -/
theorem mem_boundaryGroups_union {groups : List (ElGroup N)}
    {dict : List (List Nat × List BTag)} {btags : List BTag} {fpairs : List (FaceId × FaceId)}
    {igrp : Nat} {g : ElGroup N} {x : ElFace} :
    (∃ fg ∈ (boundaryGroups groups dict btags fpairs igrp g : List (Fag A)), ∃ t fs,
      fg.bdry? = some (t, fs) ∧ x ∈ fs) ↔ x ∈ unmatchedFaces fpairs igrp g := by
  unfold boundaryGroups
  simp only
  split
  · rename_i h
    rw [List.isEmpty_iff] at h
    simp [h]
  · constructor
    · rintro ⟨fg, hfg, t, fs, hb, hx⟩
      rcases List.mem_append.1 hfg with hfg | hfg
      · rw [List.mem_filterMap] at hfg
        obtain ⟨t', _, hfg⟩ := hfg
        split at hfg
        · simp at hfg
        · simp only [Option.some.injEq] at hfg
          subst hfg
          simp only [Fag.bdry?, Option.some.injEq, Prod.mk.injEq] at hb
          obtain ⟨rfl, rfl⟩ := hb
          exact (List.mem_filter.1 hx).1
      · split at hfg
        · simp only [List.mem_singleton] at hfg
          subst hfg
          simp only [Fag.bdry?, Option.some.injEq, Prod.mk.injEq] at hb
          obtain ⟨rfl, rfl⟩ := hb
          exact hx
        · simp at hfg
    · intro hx
      by_cases hu : btags.any (fun t => hasTag groups dict igrp t x)
      · rw [List.any_eq_true] at hu
        obtain ⟨t, ht, hxt⟩ := hu
        have hxf : x ∈ (unmatchedFaces fpairs igrp g).filter (hasTag groups dict igrp t) :=
          List.mem_filter.2 ⟨hx, hxt⟩
        refine ⟨.boundary igrp t _, List.mem_append.2 (Or.inl (List.mem_filterMap.2 ⟨t, ht, ?_⟩)),
          t, _, rfl, hxf⟩
        rw [if_neg]
        rw [List.isEmpty_iff]
        exact List.ne_nil_of_mem hxf
      · refine ⟨.boundary igrp .all (unmatchedFaces fpairs igrp g), List.mem_append.2 (Or.inr ?_),
          .all, _, rfl, hx⟩
        rw [if_pos]
        · simp
        · rw [List.any_eq_true]
          exact ⟨x, hx, by simpa using hu⟩

theorem mem_completeGroup_reallyAll {igrp : Nat} {fags : List (Fag A)}
    (hno : ∀ fg ∈ fags, ∀ t fs, fg.bdry? = some (t, fs) → t ≠ .reallyAll) {x : ElFace} :
    (∃ fg ∈ completeGroup igrp fags, ∃ fs, fg.bdry? = some (.reallyAll, fs) ∧ x ∈ fs) ↔
    ∃ fg ∈ fags, ∃ t fs, fg.bdry? = some (t, fs) ∧ x ∈ fs := by
  have hnot : BTag.reallyAll ∉ (fags.filterMap Fag.bdry?).map Prod.fst := by
    intro h
    simp only [List.mem_map, List.mem_filterMap, Prod.exists, exists_and_right, exists_eq_right] at h
    obtain ⟨fs, fg, hfg, hb⟩ := h
    exact hno fg hfg _ _ hb rfl
  have hmerge : (x ∈ mergeBoundary ((fags.filterMap Fag.bdry?).map Prod.snd)) ↔
      ∃ fg ∈ fags, ∃ t fs, fg.bdry? = some (t, fs) ∧ x ∈ fs := by
    rw [mem_mergeBoundary]
    simp only [List.mem_map, List.mem_filterMap, Prod.exists]
    constructor
    · rintro ⟨fs, ⟨t, fs', ⟨fg, hfg, hb⟩, rfl⟩, hx⟩; exact ⟨fg, hfg, t, _, hb, hx⟩
    · rintro ⟨fg, hfg, t, fs, hb, hx⟩; exact ⟨fs, ⟨t, fs, ⟨fg, hfg, hb⟩, rfl⟩, hx⟩
  rw [← hmerge]
  unfold completeGroup
  simp only [if_neg hnot]
  constructor
  · rintro ⟨fg, hfg, fs, hb, hx⟩
    simp only [List.mem_append] at hfg
    rcases hfg with ((hfg | hfg) | hfg) | hfg
    · exact absurd rfl (hno fg hfg _ _ hb)
    · split at hfg
      · simp at hfg
      · simp only [List.mem_singleton] at hfg; subst hfg; simp [Fag.bdry?] at hb
    · split at hfg
      · simp at hfg
      · simp only [List.mem_singleton] at hfg; subst hfg; simp [Fag.bdry?] at hb
    · simp only [List.mem_singleton] at hfg; subst hfg
      simp only [Fag.bdry?, Option.some.injEq, Prod.mk.injEq, true_and] at hb
      rw [hb]; exact hx
  · intro hx
    exact ⟨.boundary igrp .reallyAll _, by simp, _, rfl, hx⟩

theorem boundaryGroups_tag {groups : List (ElGroup N)} {dict : List (List Nat × List BTag)}
    {btags : List BTag} {fpairs : List (FaceId × FaceId)} {igrp : Nat} {g : ElGroup N}
    {fg : Fag A} (h : fg ∈ boundaryGroups groups dict btags fpairs igrp g) {t : BTag}
    {fs : List ElFace} (hb : fg.bdry? = some (t, fs)) :
    (t ∈ btags ∧ fs = (unmatchedFaces fpairs igrp g).filter (hasTag groups dict igrp t)) ∨
    (t = .all ∧ fs = unmatchedFaces fpairs igrp g ∧
      ∃ x ∈ fs, ∀ t ∈ btags, hasTag groups dict igrp t x = false) := by
  unfold boundaryGroups at h
  simp only at h
  split at h
  · simp at h
  · rcases List.mem_append.1 h with h | h
    · rw [List.mem_filterMap] at h
      obtain ⟨t', ht', h⟩ := h
      split at h
      · simp at h
      · simp only [Option.some.injEq] at h
        subst h
        simp only [Fag.bdry?, Option.some.injEq, Prod.mk.injEq] at hb
        obtain ⟨rfl, rfl⟩ := hb
        exact Or.inl ⟨ht', rfl⟩
    · split at h
      · rename_i hany
        simp only [List.mem_singleton] at h
        subst h
        simp only [Fag.bdry?, Option.some.injEq, Prod.mk.injEq] at hb
        obtain ⟨rfl, rfl⟩ := hb
        right
        refine ⟨rfl, rfl, ?_⟩
        rw [List.any_eq_true] at hany
        obtain ⟨x, hx, hxx⟩ := hany
        exact ⟨x, hx, by simpa using hxx⟩
      · simp at h

theorem interiorGroups_bdry? {aff0 : A} {fpairs : List (FaceId × FaceId)} {igrp : Nat} {fg : Fag A}
    (h : fg ∈ interiorGroups aff0 fpairs igrp) : fg.bdry? = none := by
  simp only [interiorGroups, List.mem_map] at h
  obtain ⟨_, _, rfl⟩ := h
  rfl

theorem inBoundary_reallyAll {groups : List (ElGroup N)} (aff0 : A)
    (dict : List (List Nat × List BTag)) (btags : List BTag) (hra : BTag.reallyAll ∉ btags)
    {f : FaceId} (hf : IsFace groups f) :
    InBoundary (computeFacial aff0 groups dict btags) .reallyAll f ↔
      ∀ f', (f, f') ∉ meshFacePairs groups := by
  obtain ⟨g, hg, hf1, hf2⟩ := hf
  have key := mem_completeGroup_reallyAll (A := A) (igrp := f.grp)
    (fags := interiorGroups aff0 (meshFacePairs groups) f.grp ++
      boundaryGroups groups dict btags (meshFacePairs groups) f.grp g) (x := ⟨f.el, f.face⟩) (by
      intro fg hfg t fs hb
      rcases List.mem_append.1 hfg with h | h
      · rw [interiorGroups_bdry? h] at hb; simp at hb
      · rcases boundaryGroups_tag h hb with ⟨ht, _⟩ | ⟨rfl, _⟩
        · rintro rfl; exact hra ht
        · simp)
  have union : (∃ fg ∈ interiorGroups aff0 (meshFacePairs groups) f.grp ++
      boundaryGroups groups dict btags (meshFacePairs groups) f.grp g, ∃ t fs,
      fg.bdry? = some (t, fs) ∧ (⟨f.el, f.face⟩ : ElFace) ∈ fs) ↔
      (⟨f.el, f.face⟩ : ElFace) ∈ unmatchedFaces (meshFacePairs groups) f.grp g := by
    rw [← mem_boundaryGroups_union (A := A) (groups := groups) (dict := dict) (btags := btags)]
    constructor
    · rintro ⟨fg, hfg, t, fs, hb, hx⟩
      rcases List.mem_append.1 hfg with h | h
      · rw [interiorGroups_bdry? h] at hb; simp at hb
      · exact ⟨fg, h, t, fs, hb, hx⟩
    · rintro ⟨fg, hfg, t, fs, hb, hx⟩
      exact ⟨fg, List.mem_append.2 (Or.inr hfg), t, fs, hb, hx⟩
  rw [union, mem_unmatchedFaces] at key
  unfold InBoundary computeFacial
  rw [completeFacial_getElem?, rawFacial_getElem?, hg]
  simp only [Option.map_some, Option.some.injEq]
  constructor
  · rintro ⟨l, fg, fs, rfl, hfg, hb, hx⟩
    exact (key.1 ⟨fg, hfg, fs, hb, hx⟩).2.2
  · intro h
    obtain ⟨fg, hfg, fs, hb, hx⟩ := key.2 ⟨hf1, hf2, h⟩
    exact ⟨_, fg, fs, rfl, hfg, hb, hx⟩

/-- C03: a face is on the boundary (under `BTAG_REALLY_ALL`) exactly when no other face has the
same vertices; this holds without any assumption on how many faces share vertices. -/
theorem C03_boundary_iff_no_partner {groups : List (ElGroup N)} (hwf : ∀ g ∈ groups, g.WF)
    (aff0 : A) (dict : List (List Nat × List BTag)) (btags : List BTag)
    (hra : BTag.reallyAll ∉ btags) (f : FaceId) (hf : IsFace groups f) :
    InBoundary (computeFacial aff0 groups dict btags) .reallyAll f ↔
      ∀ f', IsFace groups f' → f' ≠ f → ¬ SameVertices groups f f' := by
  rw [inBoundary_reallyAll aff0 dict btags hra hf]
  constructor
  · intro h f' hf' hne hs
    obtain ⟨f'', hf''⟩ := meshFacePairs_exists hf hf' hne.symm hs
    exact h f'' hf''
  · intro h f' hp
    obtain ⟨_, h2, h3, h4, _⟩ := meshFacePairs_props hwf hp
    exact h f' h2 h3.symm h4

/-- C03: if no three faces share vertices, every face either is on the boundary and has no
interior row, or is not on the boundary and has exactly one interior row, whose neighbour is the
other face with the same vertices. -/
theorem C03_facial_adjacency_complete {groups : List (ElGroup N)} (hwf : ∀ g ∈ groups, g.WF)
    (htwo : AtMostTwoSides groups)
    (aff0 : A) (dict : List (List Nat × List BTag)) (btags : List BTag)
    (hra : BTag.reallyAll ∉ btags) (f : FaceId) (hf : IsFace groups f) :
    (InBoundary (computeFacial aff0 groups dict btags) .reallyAll f ∧
      interiorRowCount (computeFacial aff0 groups dict btags) f = 0) ∨
    (¬ InBoundary (computeFacial aff0 groups dict btags) .reallyAll f ∧
      interiorRowCount (computeFacial aff0 groups dict btags) f = 1 ∧
      ∀ f', IsNeighbor (computeFacial aff0 groups dict btags) f f' ↔
        (IsFace groups f' ∧ f' ≠ f ∧ SameVertices groups f f')) := by
  rw [inBoundary_reallyAll aff0 dict btags hra hf, interiorRowCount_eq aff0 dict btags hf]
  by_cases h : ∀ f', (f, f') ∉ meshFacePairs groups
  · left
    refine ⟨h, ?_⟩
    rw [List.countP_eq_zero]
    rintro ⟨a, b⟩ hp hab
    simp at hab
    subst hab
    exact h b hp
  · right
    refine ⟨h, ?_, ?_⟩
    · push Not at h
      obtain ⟨f', hp⟩ := h
      have huniq : ∀ p ∈ meshFacePairs groups, (p.1 = f ↔ p = (f, f')) := by
        rintro ⟨a, b⟩ hp'
        constructor
        · rintro rfl
          obtain ⟨q1, q2, q3, q4, _⟩ := meshFacePairs_props hwf hp
          obtain ⟨r1, r2, r3, r4, _⟩ := meshFacePairs_props hwf hp'
          rw [htwo a b f' r1 r2 q2 r4 q4 r3 q3]
        · intro h; simp at h; exact h.1
      have : (meshFacePairs groups).countP (fun p => decide (p.1 = f)) =
          (meshFacePairs groups).count (f, f') := by
        rw [List.count]
        apply List.countP_congr
        intro p hp'
        have := huniq p hp'
        simp [this]
      rw [this]
      exact List.count_eq_one_of_mem (nodup_meshFacePairs groups) hp
    · intro f'
      rw [isNeighbor_computeFacial hwf]
      constructor
      · intro hp
        obtain ⟨_, h2, h3, h4, _⟩ := meshFacePairs_props hwf hp
        exact ⟨h2, h3.symm, h4⟩
      · rintro ⟨h1, h2, h3⟩
        obtain ⟨f'', hp⟩ := meshFacePairs_exists hf h1 h2.symm h3
        obtain ⟨_, q2, q3, q4, _⟩ := meshFacePairs_props hwf hp
        rw [htwo f f' f'' hf h1 q2 h3 q4 h2.symm q3]
        exact hp

/-- A two-group mesh used in the examples: two triangles `0 1 2`, `1 3 2` sharing the edge `{1,2}`
and one quadrilateral `1 4 3 5` (vertex order of tensor-product elements) sharing `{1,3}`. -/
def exGroups : List (ElGroup Unit) :=
  [⟨0, [[0, 1], [0, 2], [1, 2]], [[0, 1, 2], [1, 3, 2]], [(), ()]⟩,
   ⟨1, [[0, 2], [1, 3], [0, 1], [2, 3]], [[1, 4, 3, 5]], [()]⟩]

theorem exGroups_wf : ∀ g ∈ exGroups, g.WF := by
  unfold exGroups ElGroup.WF; decide

/-- Non-vacuity of C02: face 2 of element 0 and face 1 of element 1 of group 0 are neighbours, and
so are face 0 of element 1 of group 0 and face 0 of the quadrilateral. -/
example : IsNeighbor (computeFacial () exGroups [] []) ⟨0, 0, 2⟩ ⟨0, 1, 1⟩ ∧
    IsNeighbor (computeFacial () exGroups [] []) ⟨0, 1, 0⟩ ⟨1, 0, 0⟩ := by
  rw [isNeighbor_computeFacial exGroups_wf, isNeighbor_computeFacial exGroups_wf]
  decide +kernel

/-- The faces of `exGroups` (used to check the hypotheses of C03 on it). -/
theorem exGroups_faces {f : FaceId} (h : IsFace exGroups f) :
    f ∈ allFaceIds exGroups := mem_allFaceIds.2 h

/-- Non-vacuity of C03: `exGroups` has at most two sides per vertex set. -/
theorem exGroups_two : AtMostTwoSides exGroups := by
  have key : ∀ f ∈ allFaceIds exGroups, ∀ f' ∈ allFaceIds exGroups, ∀ f'' ∈ allFaceIds exGroups,
      ((faceVerts exGroups f).getD []).isPerm ((faceVerts exGroups f').getD []) = true →
      ((faceVerts exGroups f).getD []).isPerm ((faceVerts exGroups f'').getD []) = true →
      f ≠ f' → f ≠ f'' → f' = f'' := by decide +kernel
  intro f f' f'' h h' h'' ⟨a, b, ha, hb, hab⟩ ⟨c, d, hc, hd, hcd⟩ n1 n2
  apply key f (exGroups_faces h) f' (exGroups_faces h') f'' (exGroups_faces h'') _ _ n1 n2
  · simpa [ha, hb, List.isPerm_iff] using hab
  · simpa [hc, hd, List.isPerm_iff] using hcd

/-- Without the hypothesis "at most two sides" C03 fails: three segments ending in the same vertex
give a face with two interior rows. -/
theorem C03_three_sides_counterexample :
    let groups : List (ElGroup Unit) := [⟨0, [[0], [1]], [[0, 3], [1, 3], [2, 3]], [(), (), ()]⟩]
    interiorRowCount (computeFacial () groups [] []) ⟨0, 1, 1⟩ = 2 := by
  decide +kernel

/-! ## C06: merging boundaries -/

/-- C06: merging keeps every face of the inputs, exactly once. -/
theorem C06_merge_union (fss : List (List ElFace)) :
    (mergeBoundary fss).Nodup ∧ ∀ x, x ∈ mergeBoundary fss ↔ ∃ fs ∈ fss, x ∈ fs := by
  refine ⟨?_, fun x => mem_mergeBoundary⟩
  refine (pairwise_mergeBoundary fss).imp ?_
  rintro a b h rfl
  rcases h with h | ⟨_, h⟩ <;> omega

/-- C06: the merged list only depends on the set of faces: order, grouping and repetitions of the
inputs are irrelevant. -/
theorem C06_merge_order_independent (fss fss' : List (List ElFace))
    (h : ∀ x, (∃ fs ∈ fss, x ∈ fs) ↔ ∃ fs ∈ fss', x ∈ fs) :
    mergeBoundary fss = mergeBoundary fss' := by
  refine List.Perm.eq_of_pairwise (le := faceMajorLt) ?_ (pairwise_mergeBoundary _)
    (pairwise_mergeBoundary _) ?_
  · rintro a b _ _ (h | ⟨h, h'⟩) (g | ⟨g, g'⟩) <;> omega
  · rw [List.perm_ext_iff_of_nodup (C06_merge_union fss).1 (C06_merge_union fss').1]
    intro x
    rw [mem_mergeBoundary, mem_mergeBoundary]
    exact h x

example : mergeBoundary [[⟨3, 1⟩, ⟨0, 1⟩], [⟨5, 0⟩, ⟨3, 1⟩]] =
    mergeBoundary [[⟨5, 0⟩], [], [⟨0, 1⟩, ⟨3, 1⟩]] ∧
    mergeBoundary [[⟨3, 1⟩, ⟨0, 1⟩], [⟨5, 0⟩, ⟨3, 1⟩]] = [⟨5, 0⟩, ⟨0, 1⟩, ⟨3, 1⟩] := by decide

/-! ## C05: tags -/

/-- Membership in the completed list of one group. -/
theorem mem_completeGroup {igrp : Nat} {fags : List (Fag A)} {fg : Fag A} :
    fg ∈ completeGroup igrp fags ↔ fg ∈ fags ∨
      (BTag.none ∉ (fags.filterMap Fag.bdry?).map Prod.fst ∧ fg = .boundary igrp .none []) ∨
      (BTag.all ∉ (fags.filterMap Fag.bdry?).map Prod.fst ∧ fg = .boundary igrp .all
        (mergeBoundary (((fags.filterMap Fag.bdry?).filter fun b => isTrueBoundary b.1).map
          Prod.snd))) ∨
      (BTag.reallyAll ∉ (fags.filterMap Fag.bdry?).map Prod.fst ∧ fg = .boundary igrp .reallyAll
        (mergeBoundary ((fags.filterMap Fag.bdry?).map Prod.snd))) := by
  unfold completeGroup
  simp only [List.mem_append]
  split <;> split <;> split <;> simp_all [or_assoc]

/-- Face `x` is listed under tag `t` in one group's adjacency list.
(Specification or proof vocabulary, no code.) -/
def ListedUnder (fags : List (Fag A)) (t : BTag) (x : ElFace) : Prop :=
  ∃ fg ∈ fags, ∃ fs, fg.bdry? = some (t, fs) ∧ x ∈ fs

/-- Tag `t` has an entry (possibly empty) in one group's adjacency list.
(Specification or proof vocabulary, no code.) -/
def HasEntry (fags : List (Fag A)) (t : BTag) : Prop := ∃ fg ∈ fags, ∃ fs, fg.bdry? = some (t, fs)

theorem hasEntry_iff {fags : List (Fag A)} {t : BTag} :
    HasEntry fags t ↔ t ∈ (fags.filterMap Fag.bdry?).map Prod.fst := by
  simp only [HasEntry, List.mem_map, List.mem_filterMap, Prod.exists, exists_and_right,
    exists_eq_right]
  constructor
  · rintro ⟨fg, h, fs, hb⟩; exact ⟨fs, fg, h, hb⟩
  · rintro ⟨fs, fg, h, hb⟩; exact ⟨fg, h, fs, hb⟩

/-- C05, completion of any (given or computed) facial adjacency list of a group:
every original group is kept; the tags `BTAG_NONE`, `BTAG_ALL`, `BTAG_REALLY_ALL` have an entry
afterwards; where they had none before, `BTAG_NONE` is empty, `BTAG_REALLY_ALL` is the union of all
boundary groups and `BTAG_ALL` the union of those whose tag is a true boundary; other tags are
unchanged. -/
theorem C05_completion (igrp : Nat) (fags : List (Fag A)) :
    (∀ fg ∈ fags, fg ∈ completeGroup igrp fags) ∧
    (∀ t, t = .none ∨ t = .all ∨ t = .reallyAll → HasEntry (completeGroup igrp fags) t) ∧
    (∀ t x, HasEntry fags t ∨ (t ≠ .none ∧ t ≠ .all ∧ t ≠ .reallyAll) →
      (ListedUnder (completeGroup igrp fags) t x ↔ ListedUnder fags t x)) ∧
    (∀ x, ¬ HasEntry fags .none → ¬ ListedUnder (completeGroup igrp fags) .none x) ∧
    (∀ x, ¬ HasEntry fags .reallyAll →
      (ListedUnder (completeGroup igrp fags) .reallyAll x ↔ ∃ t, ListedUnder fags t x)) ∧
    (∀ x, ¬ HasEntry fags .all →
      (ListedUnder (completeGroup igrp fags) .all x ↔
        ∃ t, isTrueBoundary t = true ∧ ListedUnder fags t x)) := by
  refine ⟨fun fg h => mem_completeGroup.2 (Or.inl h), ?_, ?_, ?_, ?_, ?_⟩
  · intro t ht
    by_cases h : HasEntry fags t
    · obtain ⟨fg, h1, fs, h2⟩ := h
      exact ⟨fg, mem_completeGroup.2 (Or.inl h1), fs, h2⟩
    · rw [hasEntry_iff] at h
      rcases ht with rfl | rfl | rfl
      · exact ⟨_, mem_completeGroup.2 (Or.inr (Or.inl ⟨h, rfl⟩)), _, rfl⟩
      · exact ⟨_, mem_completeGroup.2 (Or.inr (Or.inr (Or.inl ⟨h, rfl⟩))), _, rfl⟩
      · exact ⟨_, mem_completeGroup.2 (Or.inr (Or.inr (Or.inr ⟨h, rfl⟩))), _, rfl⟩
  · intro t x ht
    constructor
    · rintro ⟨fg, hfg, fs, hb, hx⟩
      rw [hasEntry_iff] at ht
      rcases mem_completeGroup.1 hfg with h | ⟨h, rfl⟩ | ⟨h, rfl⟩ | ⟨h, rfl⟩
      · exact ⟨fg, h, fs, hb, hx⟩
      all_goals
        simp only [Fag.bdry?, Option.some.injEq, Prod.mk.injEq] at hb
        obtain ⟨rfl, rfl⟩ := hb
        exfalso
        rcases ht with ht | ht
        · exact h ht
        · simp at ht
    · rintro ⟨fg, hfg, fs, hb, hx⟩
      exact ⟨fg, mem_completeGroup.2 (Or.inl hfg), fs, hb, hx⟩
  · rintro x hno ⟨fg, hfg, fs, hb, hx⟩
    rcases mem_completeGroup.1 hfg with h | ⟨h, rfl⟩ | ⟨h, rfl⟩ | ⟨h, rfl⟩
    · exact hno ⟨fg, h, fs, hb⟩
    · simp only [Fag.bdry?, Option.some.injEq, Prod.mk.injEq] at hb
      rw [← hb.2] at hx; simp at hx
    · simp [Fag.bdry?] at hb
    · simp [Fag.bdry?] at hb
  · intro x hno
    have := mem_completeGroup_reallyAll (igrp := igrp) (fags := fags) (x := x) (by
      rintro fg hfg t fs hb rfl
      exact hno ⟨fg, hfg, fs, hb⟩)
    unfold ListedUnder
    rw [this]
    constructor
    · rintro ⟨fg, h, t, fs, hb, hx⟩; exact ⟨t, fg, h, fs, hb, hx⟩
    · rintro ⟨t, fg, h, fs, hb, hx⟩; exact ⟨fg, h, t, fs, hb, hx⟩
  · intro x hno
    constructor
    · rintro ⟨fg, hfg, fs, hb, hx⟩
      rcases mem_completeGroup.1 hfg with h | ⟨h, rfl⟩ | ⟨h, rfl⟩ | ⟨h, rfl⟩
      · exact absurd ⟨fg, h, fs, hb⟩ hno
      · simp [Fag.bdry?] at hb
      · simp only [Fag.bdry?, Option.some.injEq, Prod.mk.injEq, true_and] at hb
        rw [← hb, mem_mergeBoundary] at hx
        simp only [List.mem_map, List.mem_filter, List.mem_filterMap, Prod.exists] at hx
        obtain ⟨fs', ⟨t, fs'', ⟨⟨fg, hfg, hb'⟩, ht⟩, rfl⟩, hx⟩ := hx
        exact ⟨t, ht, fg, hfg, _, hb', hx⟩
      · simp [Fag.bdry?] at hb
    · rintro ⟨t, ht, fg, hfg, fs, hb, hx⟩
      rw [hasEntry_iff] at hno
      refine ⟨_, mem_completeGroup.2 (Or.inr (Or.inr (Or.inl ⟨hno, rfl⟩))), _, rfl, ?_⟩
      rw [mem_mergeBoundary]
      simp only [List.mem_map, List.mem_filter, List.mem_filterMap, Prod.exists]
      exact ⟨fs, ⟨t, fs, ⟨⟨fg, hfg, hb⟩, ht⟩, rfl⟩, hx⟩

/-- Non-vacuity of `C05_completion`: a group with a user tag and a partition tag. -/
example : ListedUnder (completeGroup 0 ([.boundary 0 (.user 7 false) [⟨2, 1⟩],
      .boundary 0 (.partition 1) [⟨0, 0⟩]] : List (Fag Unit))) .all ⟨2, 1⟩ ∧
    ¬ HasEntry ([.boundary 0 (.user 7 false) [⟨2, 1⟩],
      .boundary 0 (.partition 1) [⟨0, 0⟩]] : List (Fag Unit)) .all := by
  constructor
  · exact ⟨.boundary 0 .all [⟨2, 1⟩], by decide, [⟨2, 1⟩], rfl, by decide⟩
  · rw [hasEntry_iff]; decide

/-- Specification: the dictionary gives tag `t` to the vertex set `vs`. -/
def TagGiven (dict : List (List Nat × List BTag)) (vs : List Nat) (t : BTag) : Prop :=
  ∃ kv ∈ dict, (∀ v, v ∈ kv.1 ↔ v ∈ vs) ∧ t ∈ kv.2

/-- The dictionary has at most one entry per vertex set (as every Python dict keyed by
frozensets). (Specification or proof vocabulary, no code.) -/
def DistinctKeys (dict : List (List Nat × List BTag)) : Prop :=
  dict.Pairwise fun a b => ¬ ∀ v, v ∈ a.1 ↔ v ∈ b.1

/-- Specification: `f` is a boundary face, i.e. no other face has its vertices. -/
def IsBoundaryFace (groups : List (ElGroup N)) (f : FaceId) : Prop :=
  IsFace groups f ∧ ∀ f', IsFace groups f' → f' ≠ f → ¬ SameVertices groups f f'

theorem sameSet_iff {a b : List Nat} : sameSet a b = true ↔ ∀ v, v ∈ a ↔ v ∈ b := by
  simp only [sameSet, Bool.and_eq_true, List.all_eq_true, decide_eq_true_eq]
  constructor
  · rintro ⟨h1, h2⟩ v; exact ⟨h1 v, h2 v⟩
  · intro h; exact ⟨fun v hv => (h v).1 hv, fun v hv => (h v).2 hv⟩

theorem lookupTags_iff {dict : List (List Nat × List BTag)} (hd : DistinctKeys dict)
    {vs : List Nat} {t : BTag} :
    (∃ tags, lookupTags dict vs = some tags ∧ t ∈ tags) ↔ TagGiven dict vs t := by
  unfold lookupTags TagGiven
  induction dict with
  | nil => simp
  | cons kv dict ih =>
    obtain ⟨h1, h2⟩ := List.pairwise_cons.1 hd
    by_cases hs : sameSet kv.1 vs = true
    · simp only [List.find?_cons, hs, Option.map_some, Option.some.injEq, exists_eq_left',
        List.mem_cons, exists_eq_or_imp]
      constructor
      · intro h; exact Or.inl ⟨sameSet_iff.1 hs, h⟩
      · rintro (⟨_, h⟩ | ⟨kv', hkv', hv', _⟩)
        · exact h
        · exfalso
          apply h1 kv' hkv'
          intro v
          rw [sameSet_iff.1 hs v, hv' v]
    · simp only [Bool.not_eq_true] at hs
      simp only [List.find?_cons, hs, List.mem_cons, exists_eq_or_imp]
      rw [ih h2]
      constructor
      · intro h; exact Or.inr h
      · rintro (⟨h, _⟩ | h)
        · rw [sameSet_iff.2 h] at hs; simp at hs
        · exact h

theorem hasTag_iff {groups : List (ElGroup N)} {dict : List (List Nat × List BTag)}
    (hd : DistinctKeys dict) {f : FaceId} {vs : List Nat} (hvs : faceVerts groups f = some vs)
    {t : BTag} : hasTag groups dict f.grp t ⟨f.el, f.face⟩ = true ↔ TagGiven dict vs t := by
  rw [← lookupTags_iff hd]
  unfold hasTag
  simp only [hvs, Option.getD_some]
  cases lookupTags dict vs <;> simp

theorem mem_unmatchedFaces_iff {groups : List (ElGroup N)} (hwf : ∀ g ∈ groups, g.WF)
    {i : Nat} {g : ElGroup N} (hg : groups[i]? = some g) {x : ElFace} :
    x ∈ unmatchedFaces (meshFacePairs groups) i g ↔ IsBoundaryFace groups ⟨i, x.el, x.face⟩ := by
  rw [mem_unmatchedFaces]
  constructor
  · rintro ⟨h1, h2, h3⟩
    have hf : IsFace groups ⟨i, x.el, x.face⟩ := ⟨g, hg, h1, h2⟩
    refine ⟨hf, fun f' hf' hne hs => ?_⟩
    obtain ⟨f'', hp⟩ := meshFacePairs_exists hf hf' hne.symm hs
    exact h3 f'' hp
  · rintro ⟨⟨g', hg', h1, h2⟩, h3⟩
    simp only at hg'
    rw [hg] at hg'
    cases hg'
    refine ⟨h1, h2, fun f' hp => ?_⟩
    obtain ⟨_, q2, q3, q4, _⟩ := meshFacePairs_props hwf hp
    exact h3 f' q2 q3.symm q4

theorem listedUnder_raw_iff {groups : List (ElGroup N)} {aff0 : A}
    {dict : List (List Nat × List BTag)} {btags : List BTag} {fpairs : List (FaceId × FaceId)}
    {igrp : Nat} {g : ElGroup N} {t : BTag} {x : ElFace} :
    ListedUnder (interiorGroups aff0 fpairs igrp ++ boundaryGroups groups dict btags fpairs igrp g)
      t x ↔ x ∈ unmatchedFaces fpairs igrp g ∧
      ((t ∈ btags ∧ hasTag groups dict igrp t x = true) ∨
       (t = .all ∧ ∃ y ∈ unmatchedFaces fpairs igrp g,
          ∀ t' ∈ btags, hasTag groups dict igrp t' y = false)) := by
  constructor
  · rintro ⟨fg, hfg, fs, hb, hx⟩
    rcases List.mem_append.1 hfg with h | h
    · rw [interiorGroups_bdry? h] at hb; simp at hb
    · rcases boundaryGroups_tag h hb with ⟨ht, rfl⟩ | ⟨rfl, rfl, y, hy, hyy⟩
      · obtain ⟨hx1, hx2⟩ := List.mem_filter.1 hx
        exact ⟨hx1, Or.inl ⟨ht, hx2⟩⟩
      · exact ⟨hx, Or.inr ⟨rfl, y, hy, hyy⟩⟩
  · rintro ⟨hx, h⟩
    have hne : (unmatchedFaces fpairs igrp g).isEmpty = false := by
      cases hu : unmatchedFaces fpairs igrp g with
      | nil => rw [hu] at hx; simp at hx
      | cons => rfl
    rcases h with ⟨ht, hxt⟩ | ⟨rfl, y, hy, hyy⟩
    · have hxf : x ∈ (unmatchedFaces fpairs igrp g).filter (hasTag groups dict igrp t) :=
        List.mem_filter.2 ⟨hx, hxt⟩
      refine ⟨.boundary igrp t _, List.mem_append.2 (Or.inr ?_), _, rfl, hxf⟩
      unfold boundaryGroups
      simp only [hne, Bool.false_eq_true, if_false]
      refine List.mem_append.2 (Or.inl (List.mem_filterMap.2 ⟨t, ht, ?_⟩))
      rw [if_neg]
      rw [List.isEmpty_iff]; exact List.ne_nil_of_mem hxf
    · refine ⟨.boundary igrp .all (unmatchedFaces fpairs igrp g),
        List.mem_append.2 (Or.inr ?_), _, rfl, hx⟩
      unfold boundaryGroups
      simp only [hne, Bool.false_eq_true, if_false]
      refine List.mem_append.2 (Or.inr ?_)
      rw [if_pos]
      · simp
      · rw [List.any_eq_true]
        exact ⟨y, hy, by simpa using hyy⟩

theorem inBoundary_iff_listed {groups : List (ElGroup N)} {aff0 : A}
    {dict : List (List Nat × List BTag)} {btags : List BTag} {f : FaceId} {g : ElGroup N}
    (hg : groups[f.grp]? = some g) {t : BTag} :
    InBoundary (computeFacial aff0 groups dict btags) t f ↔
      ListedUnder (completeGroup f.grp (interiorGroups aff0 (meshFacePairs groups) f.grp ++
        boundaryGroups groups dict btags (meshFacePairs groups) f.grp g)) t ⟨f.el, f.face⟩ := by
  unfold InBoundary computeFacial ListedUnder
  rw [completeFacial_getElem?, rawFacial_getElem?, hg]
  simp only [Option.map_some, Option.some.injEq]
  constructor
  · rintro ⟨l, fg, fs, rfl, hfg, hb, hx⟩; exact ⟨fg, hfg, fs, hb, hx⟩
  · rintro ⟨fg, hfg, fs, hb, hx⟩; exact ⟨_, fg, fs, rfl, hfg, hb, hx⟩

/-- C05: in the computed adjacency a user tag denotes exactly the boundary faces whose vertex set
the dictionary maps to it. -/
theorem C05_user_tags {groups : List (ElGroup N)} (hwf : ∀ g ∈ groups, g.WF) (aff0 : A)
    {dict : List (List Nat × List BTag)} (hd : DistinctKeys dict) {btags : List BTag}
    (hb : EnumeratesTags dict btags) (t : BTag) (ht : t ≠ .none ∧ t ≠ .all ∧ t ≠ .reallyAll)
    (f : FaceId) (hf : IsFace groups f) :
    InBoundary (computeFacial aff0 groups dict btags) t f ↔
      IsBoundaryFace groups f ∧ ∃ vs, faceVerts groups f = some vs ∧ TagGiven dict vs t := by
  obtain ⟨vs, hvs⟩ := faceVerts_isSome hwf hf
  obtain ⟨g, hg, _, _⟩ := hf
  rw [inBoundary_iff_listed hg, (C05_completion _ _).2.2.1 t _ (Or.inr ht), listedUnder_raw_iff,
    mem_unmatchedFaces_iff hwf hg, hasTag_iff hd hvs]
  constructor
  · rintro ⟨h1, ⟨_, h2⟩ | ⟨h2, _⟩⟩
    · exact ⟨h1, vs, hvs, h2⟩
    · exact absurd h2 ht.2.1
  · rintro ⟨h1, vs', hvs', h2⟩
    rw [hvs] at hvs'; cases hvs'
    refine ⟨h1, Or.inl ⟨?_, h2⟩⟩
    obtain ⟨kv, hkv, _, h3⟩ := h2
    exact (hb.2 t).2 ⟨kv, hkv, h3⟩

/-- C05: `BTAG_REALLY_ALL` denotes exactly the boundary faces, whatever the tagging. -/
theorem C05_really_all {groups : List (ElGroup N)} (hwf : ∀ g ∈ groups, g.WF) (aff0 : A)
    (dict : List (List Nat × List BTag)) (btags : List BTag) (hra : BTag.reallyAll ∉ btags)
    (f : FaceId) (hf : IsFace groups f) :
    InBoundary (computeFacial aff0 groups dict btags) .reallyAll f ↔ IsBoundaryFace groups f := by
  rw [C03_boundary_iff_no_partner hwf aff0 dict btags hra f hf]
  exact ⟨fun h => ⟨hf, h⟩, fun h => h.2⟩

/-- C05, what `BTAG_ALL` is in the computed adjacency (exactly, for taggings that do not use
`BTAG_ALL` itself): the boundary faces that carry a tag that is a true boundary; but *all* boundary
faces of the group as soon as one boundary face of the group carries no tag. -/
theorem C05_btag_all_exact {groups : List (ElGroup N)} (hwf : ∀ g ∈ groups, g.WF) (aff0 : A)
    {dict : List (List Nat × List BTag)} (hd : DistinctKeys dict) {btags : List BTag}
    (hb : EnumeratesTags dict btags) (hall : BTag.all ∉ btags)
    (f : FaceId) (hf : IsFace groups f) :
    InBoundary (computeFacial aff0 groups dict btags) .all f ↔
      IsBoundaryFace groups f ∧
      ((∃ vs t, faceVerts groups f = some vs ∧ TagGiven dict vs t ∧ isTrueBoundary t = true) ∨
       (∃ f' vs, f'.grp = f.grp ∧ IsBoundaryFace groups f' ∧ faceVerts groups f' = some vs ∧
          ∀ t, ¬ TagGiven dict vs t)) := by
  obtain ⟨vs, hvs⟩ := faceVerts_isSome hwf hf
  obtain ⟨g, hg, hf1, hf2⟩ := hf
  rw [inBoundary_iff_listed hg]
  have untagged : (∃ y ∈ unmatchedFaces (meshFacePairs groups) f.grp g,
      ∀ t' ∈ btags, hasTag groups dict f.grp t' y = false) ↔
      ∃ f' vs, f'.grp = f.grp ∧ IsBoundaryFace groups f' ∧ faceVerts groups f' = some vs ∧
          ∀ t, ¬ TagGiven dict vs t := by
    constructor
    · rintro ⟨y, hy, hyy⟩
      rw [mem_unmatchedFaces_iff hwf hg] at hy
      obtain ⟨vs', hvs'⟩ := faceVerts_isSome hwf hy.1
      refine ⟨⟨f.grp, y.el, y.face⟩, vs', rfl, hy, hvs', fun t hg => ?_⟩
      have ht : t ∈ btags := by
        obtain ⟨kv, hkv, _, h3⟩ := hg
        exact (hb.2 t).2 ⟨kv, hkv, h3⟩
      have := (hasTag_iff hd hvs').2 hg
      simp only at this
      rw [hyy t ht] at this
      simp at this
    · rintro ⟨⟨a, b, c⟩, vs', ha, hbf, hvs', hno⟩
      simp only at ha
      subst ha
      refine ⟨⟨b, c⟩, (mem_unmatchedFaces_iff hwf hg).2 hbf, fun t _ => ?_⟩
      rw [Bool.eq_false_iff]
      intro h
      exact hno t ((hasTag_iff hd hvs').1 h)
  by_cases hun : ∃ y ∈ unmatchedFaces (meshFacePairs groups) f.grp g,
      ∀ t' ∈ btags, hasTag groups dict f.grp t' y = false
  · have hent : HasEntry (interiorGroups aff0 (meshFacePairs groups) f.grp ++
        boundaryGroups groups dict btags (meshFacePairs groups) f.grp g) .all := by
      obtain ⟨y, hy, hyy⟩ := hun
      obtain ⟨fg, h1, fs, h2, _⟩ := listedUnder_raw_iff (aff0 := aff0) (t := .all) (x := y)
        |>.2 ⟨hy, Or.inr ⟨rfl, y, hy, hyy⟩⟩
      exact ⟨fg, h1, fs, h2⟩
    rw [(C05_completion _ _).2.2.1 .all _ (Or.inl hent), listedUnder_raw_iff,
      mem_unmatchedFaces_iff hwf hg, ← untagged]
    constructor
    · rintro ⟨h1, _⟩; exact ⟨h1, Or.inr hun⟩
    · rintro ⟨h1, _⟩; exact ⟨h1, Or.inr ⟨rfl, hun⟩⟩
  · have hent : ¬ HasEntry (interiorGroups aff0 (meshFacePairs groups) f.grp ++
        boundaryGroups groups dict btags (meshFacePairs groups) f.grp g) .all := by
      rintro ⟨fg, hfg, fs, hbb⟩
      rcases List.mem_append.1 hfg with h | h
      · rw [interiorGroups_bdry? h] at hbb; simp at hbb
      · rcases boundaryGroups_tag h hbb with ⟨ht, _⟩ | ⟨_, rfl, y, hy, hyy⟩
        · exact hall ht
        · exact hun ⟨y, hy, hyy⟩
    rw [(C05_completion _ _).2.2.2.2.2 _ hent, ← untagged]
    constructor
    · rintro ⟨t, ht, hl⟩
      rw [listedUnder_raw_iff, mem_unmatchedFaces_iff hwf hg, hasTag_iff hd hvs] at hl
      rcases hl with ⟨h1, ⟨_, h2⟩ | ⟨_, h2⟩⟩
      · exact ⟨h1, Or.inl ⟨vs, t, hvs, h2, ht⟩⟩
      · exact absurd h2 hun
    · rintro ⟨h1, ⟨vs', t, hvs', h2, ht⟩ | h2⟩
      · rw [hvs] at hvs'; cases hvs'
        refine ⟨t, ht, ?_⟩
        rw [listedUnder_raw_iff, mem_unmatchedFaces_iff hwf hg, hasTag_iff hd hvs]
        refine ⟨h1, Or.inl ⟨?_, h2⟩⟩
        obtain ⟨kv, hkv, _, h3⟩ := h2
        exact (hb.2 t).2 ⟨kv, hkv, h3⟩
      · exact absurd h2 hun

/-- C05, the documented meaning of `BTAG_ALL`, for groups without untagged boundary faces or
without `BTAG_NO_BOUNDARY`-type tags: a boundary face is in `BTAG_ALL` exactly when it carries no
tag or some tag that is a true boundary.  Missing: groups that mix untagged faces with faces
carrying only `BTAG_NO_BOUNDARY`-type tags (see `C05_btag_all_counterexample`). -/
theorem C05_btag_all_partial {groups : List (ElGroup N)} (hwf : ∀ g ∈ groups, g.WF) (aff0 : A)
    {dict : List (List Nat × List BTag)} (hd : DistinctKeys dict) {btags : List BTag}
    (hb : EnumeratesTags dict btags) (hall : BTag.all ∉ btags)
    (f : FaceId) (hf : IsFace groups f)
    (hmix : (∀ t ∈ btags, isTrueBoundary t = true) ∨
      ∀ f' vs, f'.grp = f.grp → IsBoundaryFace groups f' → faceVerts groups f' = some vs →
        ∃ t, TagGiven dict vs t) :
    InBoundary (computeFacial aff0 groups dict btags) .all f ↔
      IsBoundaryFace groups f ∧ ∃ vs, faceVerts groups f = some vs ∧
        ((∀ t, ¬ TagGiven dict vs t) ∨ ∃ t, TagGiven dict vs t ∧ isTrueBoundary t = true) := by
  rw [C05_btag_all_exact hwf aff0 hd hb hall f hf]
  obtain ⟨vs, hvs⟩ := faceVerts_isSome hwf hf
  constructor
  · rintro ⟨h1, ⟨vs', t, hvs', h2, h3⟩ | ⟨f', vs', e, h2, h3, h4⟩⟩
    · exact ⟨h1, vs', hvs', Or.inr ⟨t, h2, h3⟩⟩
    · refine ⟨h1, vs, hvs, ?_⟩
      rcases hmix with hm | hm
      · by_cases hn : ∃ t, TagGiven dict vs t
        · obtain ⟨t, ht⟩ := hn
          refine Or.inr ⟨t, ht, hm t ?_⟩
          obtain ⟨kv, hkv, _, h5⟩ := ht
          exact (hb.2 t).2 ⟨kv, hkv, h5⟩
        · exact Or.inl fun t ht => hn ⟨t, ht⟩
      · obtain ⟨t, ht⟩ := hm f' vs' e h2 h3
        exact absurd ht (h4 t)
  · rintro ⟨h1, vs', hvs', h2 | ⟨t, h2, h3⟩⟩
    · exact ⟨h1, Or.inr ⟨f, vs', rfl, h1, hvs', h2⟩⟩
    · exact ⟨h1, Or.inl ⟨vs', t, hvs', h2, h3⟩⟩

/-- C05 fails in general: one segment `0 - 1`, vertex 0 tagged with a `BTAG_NO_BOUNDARY`-type tag,
vertex 1 untagged.  The face at vertex 0 is nevertheless in `BTAG_ALL`. -/
theorem C05_btag_all_counterexample :
    let groups : List (ElGroup Unit) := [⟨0, [[0], [1]], [[0, 1]], [()]⟩]
    let dict := [([0], [BTag.noBoundary])]
    InBoundary (computeFacial () groups dict [.noBoundary]) .all ⟨0, 0, 0⟩ ∧
    (∀ t, TagGiven dict [0] t → isTrueBoundary t = false) ∧ TagGiven dict [0] .noBoundary := by
  refine ⟨⟨_, .boundary 0 .all [⟨0, 0⟩, ⟨0, 1⟩], [⟨0, 0⟩, ⟨0, 1⟩], rfl, by decide +kernel, rfl,
    by decide⟩, ?_, ?_⟩
  · rintro t ⟨kv, hkv, _, ht⟩
    simp at hkv; subst hkv; simp at ht; subst ht; rfl
  · exact ⟨([0], [.noBoundary]), by simp, by simp, by simp⟩

/-- Non-vacuity of the C05 theorems: a dictionary on `exGroups` with two tags. -/
example : DistinctKeys [([0, 1], [BTag.user 1 false]), ([4, 5], [BTag.user 2 false])] ∧
    EnumeratesTags [([0, 1], [BTag.user 1 false]), ([4, 5], [BTag.user 2 false])]
      [.user 2 false, .user 1 false] ∧
    InBoundary (computeFacial () exGroups
      [([0, 1], [BTag.user 1 false]), ([4, 5], [BTag.user 2 false])]
      [.user 2 false, .user 1 false]) (.user 1 false) ⟨0, 0, 0⟩ := by
  refine ⟨?_, ⟨by decide, ?_⟩, ?_⟩
  · refine List.pairwise_cons.2 ⟨?_, List.pairwise_singleton _ _⟩
    intro b hb h
    simp at hb; subst hb
    have := h 0
    simp at this
  · intro t; simp; tauto
  · exact ⟨_, .boundary 0 (.user 1 false) [⟨0, 0⟩], [⟨0, 0⟩], rfl, by decide +kernel, rfl,
      by decide⟩

end Meshmode
