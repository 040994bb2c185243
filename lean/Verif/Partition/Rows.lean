import Verif.Partition.Props

/-!
# The adjacency of a part lists each face once (C127)

`_get_mesh_part` (meshmode/mesh/processing.py:465-546) and the functions making its adjacency groups (202-462).
-/
namespace Meshmode

variable {N P A : Type}

/-! ## Specification -/

/-- The elements and faces that an adjacency group to other elements lists.
(Specification or proof vocabulary, no code.) -/
def Fag.listed : Fag A → List (Nat × Nat)
  | .interior _ _ rows _ => rows.map fun r => (r.el, r.face)
  | .interPart _ _ _ rows _ => rows.map fun r => (r.el, r.face)
  | .boundary _ _ _ => []

/-- No face of an element is listed twice among the adjacency groups to other elements.
(Specification or proof vocabulary, no code.) -/
def ListedOnce (fags : List (List (Fag A))) : Prop := ∀ l ∈ fags, (l.flatMap Fag.listed).Nodup

/-- No boundary adjacency group lists a face twice. (Specification or proof vocabulary, no code.) -/
def BoundaryOnce (fags : List (List (Fag A))) : Prop := ∀ l ∈ fags, ∀ i t fs, Fag.boundary i t fs ∈ l → fs.Nodup

/-! ## Lemmas -/

theorem nodup_images {R S κ κ' : Type} {l : List R} {T : R → List S} {key : R → κ} {key' : S → κ'}
    (hk : (l.map key).Nodup) (hlen : ∀ r ∈ l, (T r).length ≤ 1)
    (hinj : ∀ r ∈ l, ∀ r' ∈ l, ∀ s ∈ T r, ∀ s' ∈ T r', key' s = key' s' → key r = key r') :
    ((l.flatMap T).map key').Nodup := by
  rw [List.map_flatMap, List.nodup_flatMap]
  constructor
  · intro r hr
    have := hlen r hr
    match T r, this with
    | [], _ => simp
    | [s], _ => simp
  · rw [List.Nodup, List.pairwise_map] at hk
    refine hk.imp_of_mem fun {r r'} hr hr' hne => ?_
    intro x hx hx'
    obtain ⟨s, hs, rfl⟩ := List.mem_map.1 hx
    obtain ⟨s', hs', he⟩ := List.mem_map.1 hx'
    exact hne (hinj r hr r' hr' s hs s' hs' he.symm)

theorem filterMap_flatMap_perm {α β γ : Type} (c : List α) (rows : List β) (f : α → β → Option γ) :
    (c.flatMap fun q => rows.filterMap (f q)).Perm (rows.flatMap fun r => c.filterMap fun q => f q r) := by
  induction c with
  | nil => simp
  | cons q c ih =>
    rw [List.flatMap_cons]
    have h1 : (rows.flatMap fun r => (q :: c).filterMap fun q => f q r) =
        rows.flatMap fun r => (f q r).toList ++ c.filterMap fun q => f q r := by
      apply List.flatMap_congr
      intro r _
      rw [List.filterMap_cons]
      cases f q r <;> simp
    have h2 : rows.filterMap (f q) = rows.flatMap fun r => (f q r).toList := by
      rw [List.filterMap_eq_flatMap_toList]
    rw [h1, h2]
    exact (List.Perm.append_left _ ih).trans (List.flatMap_append_perm rows _ _)

/-- The rows of the interior groups, with the neighbouring group.
(Specification or proof vocabulary, no code.) -/
def interiorRows (l : List (Fag A)) : List (Nat × AdjRow) :=
  l.flatMap fun
    | .interior _ j rows _ => rows.map fun r => (j, r)
    | _ => []

section
variable {m : MMesh N P A} {table : List (Option (Nat × Nat))} {self : Nat} {sb : Nat → Nat} {c : List (Nat × Nat)}
  {i : Nat}

/-- What a row of the mesh becomes in the part. (Specification or proof vocabulary, no code.) -/
def rowImages (m : MMesh N P A) (table : List (Option (Nat × Nat))) (self : Nat) (sb : Nat → Nat)
    (c : List (Nat × Nat)) (i : Nat) (jr : Nat × AdjRow) : List AdjRow :=
  (selfRow m table self sb i jr.1 jr.2).toList ++ c.filterMap fun q => otherRow m table self sb i jr.1 q.2 jr.2

theorem part_listed (l : List (Fag A)) :
    ((selfToSelf m table self sb i l ++ selfToOther m table self sb c i l).flatMap Fag.listed).Perm
      (((interiorRows l).flatMap (rowImages m table self sb c i)).map fun r => (r.el, r.face)) := by
  induction l with
  | nil => simp [selfToSelf, selfToOther, interiorRows]
  | cons fg l ih =>
    rw [List.flatMap_append] at ih ⊢
    have hb : ∀ fg' : Fag A, interiorRows [fg'] = [] → selfToSelf m table self sb i (fg' :: l) =
        selfToSelf m table self sb i l → selfToOther m table self sb c i (fg' :: l) = selfToOther m table self sb c i l →
        ((selfToSelf m table self sb i (fg' :: l)).flatMap Fag.listed ++
          (selfToOther m table self sb c i (fg' :: l)).flatMap Fag.listed).Perm
        (((interiorRows (fg' :: l)).flatMap (rowImages m table self sb c i)).map fun r => (r.el, r.face)) := by
      intro fg' h1 h2 h3
      rw [h2, h3, show interiorRows (fg' :: l) = interiorRows [fg'] ++ interiorRows l by simp [interiorRows], h1,
        List.nil_append]
      exact ih
    cases fg with
    | boundary a t fs => exact hb _ rfl rfl rfl
    | interPart a t p rows aff => exact hb _ rfl rfl rfl
    | interior a j rows aff =>
      have hS : (selfToSelf m table self sb i (.interior a j rows aff :: l)).flatMap Fag.listed =
          ((rows.filterMap (selfRow m table self sb i j)).map fun r => (r.el, r.face)) ++
            (selfToSelf m table self sb i l).flatMap Fag.listed := by
        simp only [selfToSelf, List.filterMap_cons]
        split
        · rename_i h
          split at h
          · rename_i h'
            rw [List.isEmpty_iff] at h'
            rw [h']
            rfl
          · simp at h
        · rename_i b h
          split at h
          · simp at h
          · obtain rfl := Option.some.inj h
            rfl
      have hO : (selfToOther m table self sb c i (.interior a j rows aff :: l)).flatMap Fag.listed =
          ((c.flatMap fun q => rows.filterMap (otherRow m table self sb i j q.2)).map fun r => (r.el, r.face)) ++
            (selfToOther m table self sb c i l).flatMap Fag.listed := by
        simp only [selfToOther, List.flatMap_cons, List.flatMap_append]
        congr 1
        clear ih hb hS
        induction c with
        | nil => rfl
        | cons q c ih =>
          rw [List.flatMap_cons, List.map_append, ← ih, List.filterMap_cons]
          split
          · rename_i h
            split at h
            · rename_i h'
              rw [List.isEmpty_iff] at h'
              rw [h']
              rfl
            · simp at h
          · rename_i b h
            split at h
            · simp at h
            · obtain rfl := Option.some.inj h
              rfl
      rw [hS, hO, show interiorRows (.interior a j rows aff :: l) = (rows.map fun r => (j, r)) ++ interiorRows l by
        simp [interiorRows], List.flatMap_append, List.map_append, List.flatMap_map]
      have h1 : (rows.filterMap (selfRow m table self sb i j) ++
          c.flatMap fun q => rows.filterMap (otherRow m table self sb i j q.2)).Perm
          (rows.flatMap fun r => rowImages m table self sb c i (j, r)) := by
        rw [List.filterMap_eq_flatMap_toList]
        refine (List.Perm.append_left _ (filterMap_flatMap_perm c rows fun q =>
          otherRow m table self sb i j q.2)).trans ?_
        exact List.flatMap_append_perm rows _ _
      have h2 := (h1.map fun r : AdjRow => (r.el, r.face)).append ih
      rw [List.map_append] at h2
      refine List.Perm.trans ?_ h2
      simp only [List.append_assoc]
      refine List.Perm.append_left _ ?_
      rw [← List.append_assoc, ← List.append_assoc]
      exact List.Perm.append_right _ List.perm_append_comm

theorem length_filterMap_key {α β κ : Type} [DecidableEq κ] (c : List α) (f : α → Option β) (key : α → κ) (p : κ)
    (h : ∀ q ∈ c, f q ≠ none → key q = p) : (c.filterMap f).length ≤ (c.map key).count p := by
  induction c with
  | nil => simp
  | cons q c ih =>
    have ih' := ih fun q' hq' => h q' (List.mem_cons_of_mem _ hq')
    rw [List.filterMap_cons, List.map_cons, List.count_cons]
    split
    · omega
    · rename_i b hb
      rw [h q List.mem_cons_self (by rw [hb]; simp)]
      simp only [List.length_cons, BEq.rfl, if_true]
      omega

theorem rowImages_length (hc : (c.map Prod.snd).Nodup) (hself : ∀ q ∈ c, q.2 ≠ self) (jr : Nat × AdjRow) :
    (rowImages m table self sb c i jr).length ≤ 1 := by
  unfold rowImages
  rw [List.length_append]
  have hcount := fun p => List.nodup_iff_count_le_one.1 hc p
  cases hq : partOf table (jr.2.nel + m.baseOf jr.1) with
  | none =>
    have h1 : selfRow m table self sb i jr.1 jr.2 = none := by
      rw [Option.eq_none_iff_forall_ne_some]
      intro r hr
      obtain ⟨_, _, _, h2, _⟩ := selfRow_eq_some.1 hr
      rw [hq] at h2
      simp at h2
    have h2 : (c.filterMap fun q => otherRow m table self sb i jr.1 q.2 jr.2) = [] := by
      rw [List.filterMap_eq_nil_iff]
      intro q _
      rw [Option.eq_none_iff_forall_ne_some]
      intro r hr
      obtain ⟨_, _, _, h2, _⟩ := otherRow_eq_some.1 hr
      rw [hq] at h2
      simp at h2
    rw [h1, h2]
    simp
  | some pk =>
    have h2 := length_filterMap_key c (fun q => otherRow m table self sb i jr.1 q.2 jr.2) Prod.snd pk.1 (by
      intro q _ hne
      obtain ⟨r, hr⟩ := Option.ne_none_iff_exists'.1 hne
      obtain ⟨_, _, _, h2, _⟩ := otherRow_eq_some.1 hr
      rw [hq] at h2
      rw [Option.some.inj h2])
    by_cases hp : pk.1 = self
    · have h3 : (c.map Prod.snd).count pk.1 = 0 := by
        rw [List.count_eq_zero, hp]
        intro hm
        obtain ⟨q, hq', he⟩ := List.mem_map.1 hm
        exact hself q hq' he
      have h4 : (selfRow m table self sb i jr.1 jr.2).toList.length ≤ 1 := by
        cases selfRow m table self sb i jr.1 jr.2 <;> simp
      omega
    · have h1 : selfRow m table self sb i jr.1 jr.2 = none := by
        rw [Option.eq_none_iff_forall_ne_some]
        intro r hr
        obtain ⟨_, _, _, h2, _⟩ := selfRow_eq_some.1 hr
        rw [hq] at h2
        exact hp (by rw [Option.some.inj h2])
      rw [h1]
      have := hcount pk.1
      simp only [Option.toList_none, List.length_nil]
      omega

theorem mem_rowImages {jr : Nat × AdjRow} {s : AdjRow} (h : s ∈ rowImages m table self sb c i jr) :
    ∃ k, partOf table (jr.2.el + m.baseOf i) = some (self, k) ∧ s.el = k - sb i ∧ s.face = jr.2.face := by
  unfold rowImages at h
  rw [List.mem_append] at h
  rcases h with h | h
  · obtain ⟨k, k', h1, _, rfl⟩ := selfRow_eq_some.1 (Option.mem_toList.1 h)
    exact ⟨k, h1, rfl, rfl⟩
  · obtain ⟨q, _, h⟩ := List.mem_filterMap.1 h
    obtain ⟨k, k', h1, _, rfl⟩ := otherRow_eq_some.1 h
    exact ⟨k, h1, rfl, rfl⟩

end

theorem connectedParts_snd (m : MMesh N P A) (parts : Parts) (table : List (Option (Nat × Nat))) (self : Nat) :
    ((connectedParts m parts table self).map Prod.snd).Nodup ∧ ∀ q ∈ connectedParts m parts table self, q.2 ≠ self := by
  unfold connectedParts
  constructor
  · have h1 : ((parts.zipIdx.map fun pi => (pi.1.1, pi.2)).map Prod.snd).Nodup := by
      rw [List.map_map]
      have : (Prod.snd ∘ fun pi : (Nat × List Nat) × Nat => (pi.1.1, pi.2)) = Prod.snd := rfl
      rw [this, List.zipIdx_map_snd]
      exact List.nodup_range'
    exact h1.sublist (List.Sublist.map _ List.filter_sublist)
  · intro q hq
    have h1 := List.of_mem_filter hq
    simp only [decide_eq_true_eq, List.mem_flatMap] at h1
    obtain ⟨li, _, fg, _, h2⟩ := h1
    cases fg with
    | interior a j rows aff =>
      simp only [List.mem_filterMap] at h2
      obtain ⟨r, _, hr⟩ := h2
      unfold connectedRow at hr
      obtain ⟨⟨p, k⟩, hp, g1⟩ := Option.bind_eq_some_iff.1 hr
      obtain ⟨⟨q', k'⟩, hq', g2⟩ := Option.bind_eq_some_iff.1 g1
      split at g2
      · rename_i hpq
        rw [← Option.some.inj g2]
        exact hpq.2
      · simp at g2
    | boundary => simp at h2
    | interPart => simp at h2

theorem sameElem_unique {m pm : MMesh N P A} {sel : List Nat} {g i' i j : Nat} (h : SameElem m pm sel g i' i)
    (h' : SameElem m pm sel g i' j) : i = j := by
  obtain ⟨k, e, h1, ⟨_, _, _, rfl⟩, h3⟩ := h
  obtain ⟨k', e', h1', ⟨_, _, _, rfl⟩, h3'⟩ := h'
  rw [h1] at h1'
  obtain rfl := Option.some.inj h1'
  exact ((C01_numbering_bijective _ _).2 _ _ _ _ h3 h3').2

theorem completeGroup_listed (i : Nat) (l : List (Fag A)) :
    (completeGroup i l).flatMap Fag.listed = l.flatMap Fag.listed := by
  unfold completeGroup
  simp only [List.flatMap_append]
  have h : ∀ (p : Prop) [Decidable p] (t : BTag) (fs : List ElFace),
      (if p then ([] : List (Fag A)) else [Fag.boundary i t fs]).flatMap Fag.listed = [] := by
    intro p _ t fs
    split <;> rfl
  rw [h, h, h]
  simp

theorem boundary_completeGroup {i a : Nat} {t : BTag} {fs : List ElFace} {l : List (Fag A)}
    (h : Fag.boundary a t fs ∈ completeGroup i l) : Fag.boundary a t fs ∈ l ∨ fs.Nodup := by
  unfold completeGroup at h
  simp only [List.mem_append] at h
  have hadd : ∀ (p : Prop) [Decidable p] (t' : BTag) (fs' : List ElFace), fs'.Nodup →
      Fag.boundary a t fs ∈ (if p then ([] : List (Fag A)) else [Fag.boundary i t' fs']) → fs.Nodup := by
    intro p _ t' fs' hn h
    split at h
    · simp at h
    · rw [List.mem_singleton, Fag.boundary.injEq] at h
      rw [h.2.2]
      exact hn
  rcases h with ((h1 | h1) | h1) | h1
  · exact Or.inl h1
  · exact Or.inr (hadd _ _ _ List.nodup_nil h1)
  · exact Or.inr (hadd _ _ _ (C06_merge_union _).1 h1)
  · exact Or.inr (hadd _ _ _ (C06_merge_union _).1 h1)

theorem unmatched_once (fpairs : List (FaceId × FaceId)) (i : Nat) (g : ElGroup N) :
    (unmatchedFaces fpairs i g).Nodup := by
  unfold unmatchedFaces
  refine List.Nodup.map_on ?_ ((nodup_groupFaceIds i g).filter _)
  intro x hx y hy h
  obtain ⟨_, _, h1⟩ := List.mem_flatMap.1 (List.mem_of_mem_filter hx)
  obtain ⟨_, _, h2⟩ := List.mem_flatMap.1 (List.mem_of_mem_filter hy)
  obtain ⟨_, _, rfl⟩ := List.mem_map.1 h1
  obtain ⟨_, _, rfl⟩ := List.mem_map.1 h2
  simpa using h

theorem mem_boundaryGroups_sub {groups : List (ElGroup N)} {dict : List (List Nat × List BTag)} {btags : List BTag}
    {fpairs : List (FaceId × FaceId)} {i : Nat} {g : ElGroup N} {fg : Fag A}
    (h : fg ∈ boundaryGroups groups dict btags fpairs i g) : ∃ t fs, fg = .boundary i t fs ∧ fs.Nodup := by
  unfold boundaryGroups at h
  simp only at h
  split at h
  · simp at h
  · rw [List.mem_append] at h
    rcases h with h | h
    · obtain ⟨t, _, h1⟩ := List.mem_filterMap.1 h
      split at h1
      · simp at h1
      · exact ⟨_, _, (Option.some.inj h1).symm, (unmatched_once _ _ _).filter _⟩
    · split at h
      · exact ⟨_, _, List.mem_singleton.1 h, unmatched_once _ _ _⟩
      · simp at h

/-! ## Properties -/

/-- C127: the adjacency computed from vertices lists every face once, if no three faces share vertices. -/
theorem C127_computed_faces {groups : List (ElGroup N)} (hwf : ∀ g ∈ groups, g.WF) (htwo : AtMostTwoSides groups) (aff0 : A)
    (dict : List (List Nat × List BTag)) (btags : List BTag) : ListedOnce (computeFacial aff0 groups dict btags) := by
  intro l hl
  obtain ⟨i, hi⟩ := List.mem_iff_getElem?.1 hl
  unfold computeFacial at hi
  rw [completeFacial_getElem?, rawFacial_getElem?] at hi
  obtain ⟨l0, hi0, rfl⟩ := Option.map_eq_some_iff.1 hi
  obtain ⟨g, hg, rfl⟩ := Option.map_eq_some_iff.1 hi0
  rw [completeGroup_listed, List.flatMap_append]
  have hb : (boundaryGroups (A := A) groups dict btags (meshFacePairs groups) i g).flatMap Fag.listed = [] := by
    rw [List.flatMap_eq_nil_iff]
    intro fg hfg
    obtain ⟨t, fs, rfl, _⟩ := mem_boundaryGroups_sub hfg
    rfl
  rw [hb, List.append_nil]
  have huniq : ∀ p ∈ meshFacePairs groups, ∀ q ∈ meshFacePairs groups, p.1 = q.1 → p = q := by
    rintro ⟨a, b⟩ hp ⟨a', b'⟩ hq h
    simp only at h
    subst h
    obtain ⟨q1, q2, q3, q4, _⟩ := meshFacePairs_props hwf hp
    obtain ⟨r1, r2, r3, r4, _⟩ := meshFacePairs_props hwf hq
    rw [htwo a b b' q1 q2 r2 q4 r4 q3 r3]
  have hface : ∀ p ∈ (meshFacePairs groups).filter (fun p => p.1.grp == i), ∀ q ∈
      (meshFacePairs groups).filter (fun p => p.1.grp == i), (p.1.el, p.1.face) = (q.1.el, q.1.face) → p = q := by
    intro p hp q hq h
    rw [List.mem_filter, beq_iff_eq] at hp hq
    refine huniq p hp.1 q hq.1 ?_
    rw [Prod.mk.injEq] at h
    obtain ⟨⟨a, b, c⟩, p2⟩ := p
    obtain ⟨⟨a', b', c'⟩, q2⟩ := q
    simp only at hp hq h ⊢
    rw [hp.2, hq.2, h.1, h.2]
  unfold interiorGroups
  simp only [List.flatMap_map, Fag.listed, List.map_map]
  rw [List.nodup_flatMap]
  constructor
  · intro ing _
    refine List.Nodup.map_on ?_ (((nodup_meshFacePairs groups).filter _).filter _)
    intro p hp q hq h
    exact hface p (List.mem_of_mem_filter hp) q (List.mem_of_mem_filter hq) h
  · refine (nodup_npUnique _).imp ?_
    intro a b hne x hx hx'
    obtain ⟨p, hp, rfl⟩ := List.mem_map.1 hx
    obtain ⟨q, hq, he⟩ := List.mem_map.1 hx'
    have := hface q (List.mem_of_mem_filter hq) p (List.mem_of_mem_filter hp) he
    subst this
    rw [List.mem_filter, beq_iff_eq] at hp hq
    exact hne (hp.2.symm.trans hq.2)

/-- C127: no boundary tag of the adjacency computed from vertices lists a face twice. -/
theorem C127_computed_boundary (groups : List (ElGroup N)) (aff0 : A) (dict : List (List Nat × List BTag))
    (btags : List BTag) : BoundaryOnce (computeFacial aff0 groups dict btags) := by
  intro l hl a t fs hfg
  obtain ⟨i, hi⟩ := List.mem_iff_getElem?.1 hl
  unfold computeFacial at hi
  rw [completeFacial_getElem?, rawFacial_getElem?] at hi
  obtain ⟨l0, hi0, rfl⟩ := Option.map_eq_some_iff.1 hi
  obtain ⟨g, hg, rfl⟩ := Option.map_eq_some_iff.1 hi0
  rcases boundary_completeGroup hfg with h1 | h1
  · rw [List.mem_append] at h1
    rcases h1 with h1 | h1
    · simp [interiorGroups] at h1
    · obtain ⟨t', fs', he, hn⟩ := mem_boundaryGroups_sub h1
      rw [Fag.boundary.injEq] at he
      rw [he.2.2]
      exact hn
  · exact h1

/-- C127: if no face is listed twice in the mesh, none is listed twice in the part, neither among its own elements nor
towards other parts. -/
theorem C127_part_faces {m : MMesh N P A} (ha : AdjOK m) {parts : Parts} (hids : (parts.map Prod.fst).Nodup)
    (hsorted : ∀ p ∈ parts, p.2.Pairwise (· < ·)) {pid : Nat} {pm : MMesh N P A}
    (h : getMeshPart m parts pid = .ok pm) (ho : ListedOnce m.fags) : ListedOnce pm.fags := by
  obtain ⟨pidx, sel, required, hs⟩ := getMeshPart_ok h
  have hv := hs.valid hids hsorted
  intro l' hl'
  obtain ⟨i, hi⟩ := List.mem_iff_getElem?.1 hl'
  rw [part_fags_getElem? hs, Option.map_eq_some_iff] at hi
  obtain ⟨l, hl, rfl⟩ := hi
  rw [completeGroup_listed, List.flatMap_append]
  have hb : (partBoundaryGroups m (globalElemToPart (nelements m.sizes) parts) pidx (selfGroupBase pm.sizes) i
      l).flatMap Fag.listed = [] := by
    rw [List.flatMap_eq_nil_iff]
    intro fg hfg
    obtain ⟨b, _, rfl⟩ := List.mem_map.1 hfg
    rfl
  rw [hb, List.append_nil, (part_listed l).nodup_iff]
  obtain ⟨hc1, hc2⟩ := connectedParts_snd m parts (globalElemToPart (nelements m.sizes) parts) pidx
  have hrows : ∀ jr ∈ interiorRows l, IsFace m.groups ⟨i, jr.2.el, jr.2.face⟩ := by
    intro jr hjr
    obtain ⟨fg, hfg, hr⟩ := List.mem_flatMap.1 hjr
    cases fg with
    | interior a j rows aff =>
      obtain ⟨r, hr', rfl⟩ := List.mem_map.1 hr
      exact ((ha.interior _ _ _ _ _ _ hl hfg).2 r hr').1
    | boundary => simp at hr
    | interPart => simp at hr
  refine nodup_images (key := fun jr : Nat × AdjRow => (jr.2.el, jr.2.face)) ?_ (fun jr _ => rowImages_length hc1 hc2 jr)
    ?_
  · refine (ho l (List.mem_of_getElem? hl)).sublist ?_
    clear hrows hl hl' hb
    induction l with
    | nil => simp [interiorRows]
    | cons fg l ih =>
      rw [show interiorRows (fg :: l) = interiorRows [fg] ++ interiorRows l by simp [interiorRows], List.map_append,
        List.flatMap_cons]
      refine List.Sublist.append ?_ ih
      cases fg with
      | interior a j rows aff => simp [interiorRows, Fag.listed, Function.comp_def]
      | boundary => simp [interiorRows]
      | interPart => simp [interiorRows]
  · intro jr hjr jr' hjr' s hs1 s' hs1' he
    obtain ⟨k, h1, h2, h3⟩ := mem_rowImages hs1
    obtain ⟨k', h1', h2', h3'⟩ := mem_rowImages hs1'
    obtain ⟨g1, hg1, _, hel1⟩ := hrows jr hjr
    obtain ⟨g2, hg2, _, hel2⟩ := hrows jr' hjr'
    simp only at hg1 hg2 hel1 hel2
    have e1 := (partOf_sameElem hs hv hg1 hel1 (i' := s.el)).2 ⟨k, h1, h2.symm⟩
    have e2 := (partOf_sameElem hs hv hg2 hel2 (i' := s'.el)).2 ⟨k', h1', h2'.symm⟩
    simp only [Prod.mk.injEq] at he ⊢
    rw [← he.1] at e2
    exact ⟨sameElem_unique e1 e2, by rw [← h3, ← h3', he.2]⟩

/-- C127: the part has no adjacency groups without faces to its own or other parts' elements. -/
theorem C127_no_empty_groups {m : MMesh N P A} {parts : Parts} {pid : Nat} {pm : MMesh N P A}
    (h : getMeshPart m parts pid = .ok pm) : ∀ l ∈ pm.fags, (∀ i j rows aff, Fag.interior i j rows aff ∈ l → rows ≠ []) ∧
      ∀ i t q rows aff, Fag.interPart i t q rows aff ∈ l → rows ≠ [] := by
  obtain ⟨pidx, sel, required, hs⟩ := getMeshPart_ok h
  intro l' hl'
  obtain ⟨i, hi⟩ := List.mem_iff_getElem?.1 hl'
  rw [part_fags_getElem? hs, Option.map_eq_some_iff] at hi
  obtain ⟨l, hl, rfl⟩ := hi
  have key : ∀ fg ∈ completeGroup i (selfToSelf m (globalElemToPart (nelements m.sizes) parts) pidx
      (selfGroupBase pm.sizes) i l ++ selfToOther m (globalElemToPart (nelements m.sizes) parts) pidx
        (selfGroupBase pm.sizes) (connectedParts m parts (globalElemToPart (nelements m.sizes) parts) pidx) i l ++
      partBoundaryGroups m (globalElemToPart (nelements m.sizes) parts) pidx (selfGroupBase pm.sizes) i l),
      fg.listed ≠ [] ∨ ∃ t fs, fg = .boundary i t fs := by
    intro fg hfg
    unfold completeGroup at hfg
    simp only [List.mem_append] at hfg
    have hadd : ∀ (p : Prop) [Decidable p] (t : BTag) (fs : List ElFace),
        fg ∈ (if p then ([] : List (Fag A)) else [Fag.boundary i t fs]) → ∃ t fs, fg = .boundary i t fs := by
      intro p _ t fs h
      split at h
      · simp at h
      · exact ⟨t, fs, List.mem_singleton.1 h⟩
    rcases hfg with ((((h1 | h1) | h1) | h1) | h1) | h1
    · left
      obtain ⟨f0, _, h2⟩ := List.mem_filterMap.1 h1
      cases f0 with
      | interior a j rows aff =>
        simp only at h2
        split at h2
        · simp at h2
        · rename_i hne
          obtain rfl := Option.some.inj h2
          simpa [Fag.listed, List.isEmpty_iff] using hne
      | boundary => simp at h2
      | interPart => simp at h2
    · left
      obtain ⟨f0, _, h2⟩ := List.mem_flatMap.1 h1
      cases f0 with
      | interior a j rows aff =>
        obtain ⟨q, _, h3⟩ := List.mem_filterMap.1 h2
        simp only at h3
        split at h3
        · simp at h3
        · rename_i hne
          obtain rfl := Option.some.inj h3
          simpa [Fag.listed, List.isEmpty_iff] using hne
      | boundary => simp at h2
      | interPart => simp at h2
    · right
      obtain ⟨b, _, rfl⟩ := List.mem_map.1 h1
      exact ⟨_, _, rfl⟩
    · exact Or.inr (hadd _ _ _ h1)
    · exact Or.inr (hadd _ _ _ h1)
    · exact Or.inr (hadd _ _ _ h1)
  constructor
  · intro a j rows aff hfg h0
    subst h0
    rcases key _ hfg with h1 | ⟨_, _, h1⟩
    · exact h1 rfl
    · simp at h1
  · intro a t q rows aff hfg h0
    subst h0
    rcases key _ hfg with h1 | ⟨_, _, h1⟩
    · exact h1 rfl
    · simp at h1

/-- C127: if no adjacency group of the mesh lists a face twice, no boundary group of the part does. -/
theorem C127_part_boundary {m : MMesh N P A} (ha : AdjOK m) {parts : Parts} (hids : (parts.map Prod.fst).Nodup)
    (hsorted : ∀ p ∈ parts, p.2.Pairwise (· < ·)) {pid : Nat} {pm : MMesh N P A}
    (h : getMeshPart m parts pid = .ok pm) (hl1 : ListedOnce m.fags) (ho : BoundaryOnce m.fags) :
    BoundaryOnce pm.fags := by
  obtain ⟨pidx, sel, required, hs⟩ := getMeshPart_ok h
  have hv := hs.valid hids hsorted
  intro l' hl' a t fs hfg
  obtain ⟨i, hi⟩ := List.mem_iff_getElem?.1 hl'
  rw [part_fags_getElem? hs, Option.map_eq_some_iff] at hi
  obtain ⟨l, hl, rfl⟩ := hi
  rcases boundary_completeGroup hfg with h1 | h1
  on_goal 2 => exact h1
  simp only [List.mem_append] at h1
  rcases h1 with (h1 | h1) | h1
  · obtain ⟨f0, _, h2⟩ := List.mem_filterMap.1 h1
    cases f0 with
    | interior a j rows aff =>
      simp only at h2
      split at h2 <;> simp at h2
    | boundary => simp at h2
    | interPart => simp at h2
  · obtain ⟨f0, _, h2⟩ := List.mem_flatMap.1 h1
    cases f0 with
    | interior a j rows aff =>
      obtain ⟨q, _, h3⟩ := List.mem_filterMap.1 h2
      simp only at h3
      split at h3 <;> simp at h3
    | boundary => simp at h2
    | interPart => simp at h2
  · obtain ⟨b, hb, he⟩ := List.mem_map.1 h1
    rw [Fag.boundary.injEq] at he
    obtain ⟨rfl, rfl, rfl⟩ := he
    obtain ⟨f0, hf0, hb'⟩ := List.mem_filterMap.1 hb
    have hn : b.2.Nodup := by
      cases f0 with
      | boundary a' t' fs' =>
        obtain rfl := Option.some.inj hb'
        exact ho l (List.mem_of_getElem? hl) _ _ _ hf0
      | interior => simp [Fag.bdry?] at hb'
      | interPart a' t' q rows aff =>
        obtain rfl := Option.some.inj hb'
        have h2 := (List.nodup_flatMap.1 (hl1 l (List.mem_of_getElem? hl))).1 _ hf0
        simp only [Fag.listed] at h2
        refine List.Nodup.of_map (fun x : ElFace => (x.el, x.face)) ?_
        rw [List.map_map]
        exact h2
    have hfaces : ∀ x ∈ b.2, IsFace m.groups ⟨i, x.el, x.face⟩ := fun x hx =>
      ha.boundary b.1 ⟨i, x.el, x.face⟩ ⟨l, f0, b.2, hl, hf0, hb', hx⟩
    rw [List.filterMap_eq_flatMap_toList]
    have key := nodup_images (l := b.2) (key := id) (key' := id) (T := fun x =>
      (bdryRow m (globalElemToPart (nelements m.sizes) parts) pidx (selfGroupBase pm.sizes) i x).toList) (by simpa using hn)
      (fun x _ => by
        cases bdryRow m (globalElemToPart (nelements m.sizes) parts) pidx (selfGroupBase pm.sizes) i x <;> simp) (by
        intro x hx x' hx' s hs1 s' hs1' he
        obtain ⟨k, g1, rfl⟩ := bdryRow_eq_some.1 (Option.mem_toList.1 hs1)
        obtain ⟨k', g1', rfl⟩ := bdryRow_eq_some.1 (Option.mem_toList.1 hs1')
        obtain ⟨gr, hg1, _, hel1⟩ := hfaces x hx
        obtain ⟨gr', hg2, _, hel2⟩ := hfaces x' hx'
        simp only at hg1 hg2 hel1 hel2
        simp only [id_eq, ElFace.mk.injEq] at he
        have e1 := (partOf_sameElem hs hv hg1 hel1 (i' := k - selfGroupBase pm.sizes i)).2 ⟨k, g1, rfl⟩
        have e2 := (partOf_sameElem hs hv hg2 hel2 (i' := k - selfGroupBase pm.sizes i)).2 ⟨k', g1', he.1.symm⟩
        have e3 := sameElem_unique e1 e2
        cases x
        cases x'
        simp only [id_eq, ElFace.mk.injEq]
        exact ⟨e3, he.2⟩)
    simpa using key

/-! ## Example -/

/-- Non-vacuity of C127_computed_faces, with an instance of C127_computed_boundary. -/
example : ListedOnce (computeFacial () exGroups [] []) ∧ BoundaryOnce (computeFacial () exGroups [] []) :=
  ⟨C127_computed_faces exGroups_wf exGroups_two _ _ _, C127_computed_boundary _ _ _ _⟩

theorem exPartMesh_once : ListedOnce exPartMesh.fags ∧ BoundaryOnce exPartMesh.fags := by
  constructor
  · unfold ListedOnce
    decide +kernel
  · have h : ∀ l ∈ exPartMesh.fags, ∀ fg ∈ l, (match fg with
        | .boundary _ _ fs => fs
        | _ => []).Nodup := by decide +kernel
    intro l hl i t fs hfg
    exact h l hl _ hfg

/-- Non-vacuity of C127_part_faces and C127_part_boundary. -/
example : ListedOnce exPart5.fags ∧ BoundaryOnce exPart5.fags ∧ ListedOnce exPart3.fags :=
  ⟨C127_part_faces exPartMesh_adjOK exParts_ok.1 exParts_ok.2 exParts_made.1 exPartMesh_once.1,
    C127_part_boundary exPartMesh_adjOK exParts_ok.1 exParts_ok.2 exParts_made.1 exPartMesh_once.1 exPartMesh_once.2,
    C127_part_faces exPartMesh_adjOK exParts_ok.1 exParts_ok.2 exParts_made.2 exPartMesh_once.1⟩

/-- Part 3 has two groups to part 5 and lists two faces there. -/
example : exPart3.fags.map (fun l => l.flatMap Fag.listed) = [[(0, 0), (0, 1)], []] := by decide

example : ∀ l ∈ exPart3.fags, (∀ i j rows aff, Fag.interior i j rows aff ∈ l → rows ≠ []) ∧
    ∀ i t q rows aff, Fag.interPart i t q rows aff ∈ l → rows ≠ [] := C127_no_empty_groups exParts_made.2

end Meshmode
