import Verif.Mesh.MergeProps

/-!
# Splitting groups by element flags (C15)

`split_mesh_groups` (meshmode/mesh/processing.py:970-1027).
-/
namespace Meshmode

variable {N P A : Type}

/-- `np.unique` of an integer array: the distinct values in increasing order.
Code: meshmode/mesh/processing.py:1006. -/
def npUniqueInt (l : List Int) : List Int := stableSort (fun a b => decide (a ≤ b)) l.dedup

/-- `array[mask]` along the element axis, with `mask = grp_flags == flag`
(meshmode/mesh/processing.py:1007-1011). -/
def selectFlag {α : Type} (flags : List Int) (flag : Int) (l : List α) : List α :=
  ((l.zip flags).filter fun p => p.2 == flag).map Prod.fst

/-- The body of the loop over groups, meshmode/mesh/processing.py:998-1012: the subgroups with
their keys, in the order in which they are appended to `new_groups`. -/
def splitGroup (igrp : Nat) (flags : List Int) (g : ElGroup N) :
    List ((Nat × Int) × ElGroup N) :=
  (npUniqueInt flags).map fun flag =>
    ((igrp, flag), { g with vertexIndices := selectFlag flags flag g.vertexIndices
                            nodes := selectFlag flags flag g.nodes })

/-- All subgroups with their keys; `grp_flags` is a slice starting at the group's base element
number, meshmode/mesh/processing.py:995-1001. -/
def splitPieces (groups : List (ElGroup N)) (flags : List Int) :
    List ((Nat × Int) × ElGroup N) :=
  ((baseElementNrs (groups.map ElGroup.nelements)).zip groups).zipIdx.flatMap fun bgi =>
    splitGroup bgi.2 ((flags.drop bgi.1.1).take bgi.1.2.nelements) bgi.1.2

/-- `split_mesh_groups`, meshmode/mesh/processing.py:970-1027: `none` for a failed assertion or
(no groups at all) the `zip(strict=True)` error; otherwise the new mesh and the map
`(group, flag) ↦ new group` as the list of its items (an item is assigned `len(new_groups)` just
before its group is appended, so it is the position in the list). -/
def splitMeshGroups (m : FMesh N P A) (flags : List Int) :
    Option (FMesh N P A × List ((Nat × Int) × Nat)) :=
  if flags.length ≠ nelements (m.groups.map ElGroup.nelements) then none
  else if m.groups = [] then none
  else
    let pieces := splitPieces m.groups flags
    some ({ m with
        groups := pieces.map Prod.snd
        lazy := LazyMesh.make completeFacial m.vertices.isSome m.lazy.conforming .missing .missing },
      pieces.zipIdx.map fun pi => (pi.1.1, pi.2))

/-! ## Specification -/

/-- Element `i` of group `g` carries `flag`. (Specification or proof vocabulary, no code.) -/
def HasFlag (groups : List (ElGroup N)) (flags : List Int) (g i : Nat) (flag : Int) : Prop :=
  ∃ e, IsGlobalNr (groups.map ElGroup.nelements) g i e ∧ flags[e]? = some flag

/-- One element with all its data: kind of group, its faces, its vertex numbers, its nodes.
(Specification or proof vocabulary, no code.) -/
def elementData (groups : List (ElGroup N)) : List (Nat × List (List Nat) × List Nat × N) :=
  groups.flatMap fun g => (g.vertexIndices.zip g.nodes).map fun p => (g.kind, g.fvi, p.1, p.2)

/-! ## Lemmas -/

theorem mem_npUniqueInt {l : List Int} {a : Int} : a ∈ npUniqueInt l ↔ a ∈ l := by
  simp [npUniqueInt]

theorem nodup_npUniqueInt (l : List Int) : (npUniqueInt l).Nodup :=
  (stableSort_perm _ _).nodup_iff.2 (List.nodup_dedup l)

/-- Splitting a list by a key over all distinct keys loses and repeats nothing. -/
theorem flatMap_filter_perm {α κ : Type} [DecidableEq κ] (key : α → κ) (ks : List κ)
    (hks : ks.Nodup) (l : List α) :
    (ks.flatMap fun k => l.filter fun x => key x == k).Perm
      (l.filter fun x => decide (key x ∈ ks)) := by
  induction ks with
  | nil => simp
  | cons k ks ih =>
    obtain ⟨h1, h2⟩ := List.nodup_cons.1 hks
    rw [List.flatMap_cons]
    refine ((ih h2).append_left _).trans ?_
    have h3 := List.filter_append_perm (fun x => key x == k)
      (l.filter fun x => decide (key x ∈ k :: ks))
    refine List.Perm.trans (List.Perm.of_eq ?_) h3
    rw [List.filter_filter, List.filter_filter]
    congr 1
    · apply List.filter_congr
      intro x _
      by_cases hx : key x = k <;> simp [hx]
    · apply List.filter_congr
      intro x _
      by_cases hx : key x = k
      · subst hx; simp [h1]
      · simp [hx]

theorem flatMap_congr_perm {α β : Type} {l : List α} {f g : α → List β}
    (h : ∀ a ∈ l, (f a).Perm (g a)) : (l.flatMap f).Perm (l.flatMap g) := by
  induction l with
  | nil => exact List.Perm.refl _
  | cons a l ih =>
    rw [List.flatMap_cons, List.flatMap_cons]
    exact (h a List.mem_cons_self).append (ih fun b hb => h b (List.mem_cons_of_mem _ hb))

theorem selectFlag_zip {α β : Type} (flags : List Int) (flag : Int) (l : List α) (l' : List β)
    (h : l.length = l'.length) :
    (selectFlag flags flag l).zip (selectFlag flags flag l') =
      selectFlag flags flag (l.zip l') := by
  induction l generalizing l' flags with
  | nil => simp [selectFlag]
  | cons a l ih =>
    cases l' with
    | nil => simp at h
    | cons b l' =>
      cases flags with
      | nil => simp [selectFlag]
      | cons f fs =>
        have := ih fs l' (by simpa using h)
        by_cases hf : f = flag
        · simp only [selectFlag] at this ⊢
          simp [hf, this]
        · simp only [selectFlag] at this ⊢
          simp [hf, this]

/-- Positions carrying the flag. (Specification or proof vocabulary, no code.) -/
def flagPositions (flags : List Int) (flag : Int) : List Nat :=
  (List.range flags.length).filter fun i => flags[i]? == some flag

theorem selectFlag_eq {α : Type} (flags : List Int) (flag : Int) (l : List α)
    (h : l.length = flags.length) :
    selectFlag flags flag l = (flagPositions flags flag).filterMap (l[·]?) := by
  unfold flagPositions
  induction l generalizing flags with
  | nil => simp [selectFlag]
  | cons a l ih =>
    cases flags with
    | nil => simp at h
    | cons f fs =>
      have := ih fs (by simpa using h)
      rw [List.length_cons, List.range_succ_eq_map, List.filter_cons]
      have h2 : ((List.map Nat.succ (List.range fs.length)).filter
          fun i => (f :: fs)[i]? == some flag) =
          ((List.range fs.length).filter fun i => fs[i]? == some flag).map Nat.succ := by
        rw [List.filter_map]; congr 1
      rw [h2]
      by_cases hf : f = flag
      · subst hf
        simp only [List.getElem?_cons_zero, beq_self_eq_true, if_true, List.filterMap_cons]
        rw [List.filterMap_map]
        simp only [selectFlag] at this ⊢
        simp [this]
      · simp only [List.getElem?_cons_zero]
        rw [if_neg (by simpa using hf), List.filterMap_map]
        simp only [selectFlag] at this ⊢
        simp [hf, this]

theorem mem_flagPositions {flags : List Int} {flag : Int} {i : Nat} :
    i ∈ flagPositions flags flag ↔ flags[i]? = some flag := by
  simp only [flagPositions, List.mem_filter, List.mem_range, beq_iff_eq, and_iff_right_iff_imp]
  intro h
  exact (List.getElem?_eq_some_iff.1 h).1

theorem flagPositions_lt (flags : List Int) (flag : Int) :
    (flagPositions flags flag).Pairwise (· < ·) := List.pairwise_lt_range.filter _

theorem getElem?_filterMap_pos {α : Type} {l : List α} {idx : List Nat}
    (h : ∀ i ∈ idx, i < l.length) (j : Nat) :
    (idx.filterMap (l[·]?))[j]? = idx[j]?.bind (l[·]?) := by
  induction idx generalizing j with
  | nil => simp
  | cons i idx ih =>
    have hi := List.getElem?_eq_getElem (h i List.mem_cons_self)
    rw [List.filterMap_cons, hi]
    cases j with
    | zero => simp [hi]
    | succ j => simpa using ih (fun i hi => h i (List.mem_cons_of_mem _ hi)) j

theorem length_filterMap_pos {α : Type} {l : List α} {idx : List Nat}
    (h : ∀ i ∈ idx, i < l.length) : (idx.filterMap (l[·]?)).length = idx.length := by
  induction idx with
  | nil => simp
  | cons i idx ih =>
    rw [List.filterMap_cons, List.getElem?_eq_getElem (h i List.mem_cons_self)]
    simpa using ih fun i hi => h i (List.mem_cons_of_mem _ hi)

/-- The slice of the flags belonging to group `g`. (Specification or proof vocabulary, no code.) -/
def groupFlags (groups : List (ElGroup N)) (flags : List Int) (g n : Nat) : List Int :=
  (flags.drop ((groups.map ElGroup.nelements).take g).sum).take n

theorem mem_splitPieces {groups : List (ElGroup N)} {flags : List Int}
    {p : (Nat × Int) × ElGroup N} :
    p ∈ splitPieces groups flags ↔ ∃ (g : Nat) (grp : ElGroup N), groups[g]? = some grp ∧
      p ∈ splitGroup g (groupFlags groups flags g grp.nelements) grp := by
  unfold splitPieces
  rw [List.mem_flatMap]
  constructor
  · rintro ⟨⟨⟨b, grp⟩, g⟩, hm, hp⟩
    rw [List.mem_zipIdx_iff_getElem?] at hm
    obtain ⟨h1, h2⟩ := List.getElem?_zip_eq_some.1 hm
    have hlt : g < (groups.map ElGroup.nelements).length := by
      rw [List.length_map]; exact (List.getElem?_eq_some_iff.1 h2).1
    rw [baseElementNrs_getElem? _ _ hlt] at h1
    simp only [Option.some.injEq] at h1
    subst h1
    exact ⟨g, grp, h2, hp⟩
  · rintro ⟨g, grp, hg, hp⟩
    have hlt : g < (groups.map ElGroup.nelements).length := by
      rw [List.length_map]; exact (List.getElem?_eq_some_iff.1 hg).1
    refine ⟨((((groups.map ElGroup.nelements).take g).sum, grp), g), ?_, hp⟩
    rw [List.mem_zipIdx_iff_getElem?]
    exact List.getElem?_zip_eq_some.2 ⟨baseElementNrs_getElem? _ _ hlt, hg⟩

theorem splitPieces_keys_nodup (groups : List (ElGroup N)) (flags : List Int) :
    ((splitPieces groups flags).map Prod.fst).Nodup := by
  unfold splitPieces
  rw [List.map_flatMap]
  rw [List.nodup_flatMap]
  constructor
  · intro bgi _
    unfold splitGroup
    rw [List.map_map]
    refine List.Nodup.map_on ?_ (nodup_npUniqueInt _)
    intro a _ b _ h
    simpa using h
  · have hp : ((baseElementNrs (groups.map ElGroup.nelements)).zip groups).zipIdx.Pairwise
        (fun a b => a.2 ≠ b.2) := by
      rw [List.zipIdx_eq_zip_range']
      refine List.Pairwise.of_map Prod.snd (fun a b h => h) ?_
      rw [List.map_snd_zip (by simp)]
      exact List.nodup_range'
    refine hp.imp ?_
    intro a b hab
    simp only [Function.onFun, splitGroup, List.map_map]
    rw [List.disjoint_left]
    intro k hk hk'
    obtain ⟨f, _, rfl⟩ := List.mem_map.1 hk
    obtain ⟨f', _, h⟩ := List.mem_map.1 hk'
    simp only [Function.comp_apply, Prod.mk.injEq] at h
    exact hab h.1.symm

theorem groupFlags_getElem? {groups : List (ElGroup N)} {flags : List Int} {g i : Nat}
    {grp : ElGroup N} (hg : groups[g]? = some grp) (flag : Int) :
    (groupFlags groups flags g grp.nelements)[i]? = some flag ↔
      HasFlag groups flags g i flag := by
  unfold groupFlags HasFlag
  rw [List.getElem?_take]
  constructor
  · intro h
    split at h
    · rename_i hi
      rw [List.getElem?_drop] at h
      exact ⟨_, ⟨grp.nelements, by simp [hg], hi, rfl⟩, h⟩
    · simp at h
  · rintro ⟨e, ⟨n, hn, hi, rfl⟩, hf⟩
    simp only [List.getElem?_map, hg, Option.map_some, Option.some.injEq] at hn
    subst hn
    rw [if_pos hi, List.getElem?_drop]; exact hf

theorem length_groupFlags {groups : List (ElGroup N)} {flags : List Int} {g : Nat}
    {grp : ElGroup N} (hg : groups[g]? = some grp)
    (hlen : flags.length = nelements (groups.map ElGroup.nelements)) :
    (groupFlags groups flags g grp.nelements).length = grp.nelements := by
  have hlt : g < (groups.map ElGroup.nelements).length := by
    rw [List.length_map]; exact (List.getElem?_eq_some_iff.1 hg).1
  have hn : (groups.map ElGroup.nelements)[g] = grp.nelements := by
    have := List.getElem?_eq_getElem hlt
    rw [List.getElem?_map, hg] at this
    simpa using this.symm
  unfold groupFlags
  rw [List.length_take, List.length_drop, hlen]
  by_cases h0 : grp.nelements = 0
  · omega
  · have := take_sum_add_lt _ g (grp.nelements - 1) hlt (by omega)
    unfold nelements
    omega

theorem splitPieces_groups (groups : List (ElGroup N)) :
    (((baseElementNrs (groups.map ElGroup.nelements)).zip groups).zipIdx.map fun x => x.1.2) =
      groups := by
  apply List.ext_getElem?
  intro i
  rw [List.getElem?_map]
  by_cases hi : i < groups.length
  · have h1 := baseElementNrs_getElem? (groups.map ElGroup.nelements) i (by simpa using hi)
    have h2 := List.getElem?_eq_getElem hi
    have h3 : ((baseElementNrs (groups.map ElGroup.nelements)).zip groups)[i]? =
        some (_, _) := List.getElem?_zip_eq_some.2 ⟨h1, h2⟩
    rw [List.getElem?_zipIdx, h3, h2]; rfl
  · rw [List.getElem?_eq_none (by omega : groups.length ≤ i), List.getElem?_eq_none]
    · rfl
    · simp only [List.length_zipIdx, List.length_zip]; omega

theorem splitMeshGroups_some {m : FMesh N P A} {flags : List Int} {M : FMesh N P A}
    {mp : List ((Nat × Int) × Nat)} (h : splitMeshGroups m flags = some (M, mp)) :
    flags.length = nelements (m.groups.map ElGroup.nelements) ∧
    M.groups = (splitPieces m.groups flags).map Prod.snd ∧
    mp = (splitPieces m.groups flags).zipIdx.map (fun pi => (pi.1.1, pi.2)) ∧
    M.vertices = m.vertices ∧ M.ambientDim = m.ambientDim ∧
    M.lazy = LazyMesh.make completeFacial m.vertices.isSome m.lazy.conforming .missing .missing := by
  unfold splitMeshGroups at h
  split at h
  · simp at h
  · rename_i hl
    split at h
    · simp at h
    · simp only [Option.some.injEq, Prod.mk.injEq] at h
      obtain ⟨rfl, rfl⟩ := h
      exact ⟨not_not.1 hl, rfl, rfl, rfl, rfl, rfl⟩

/-! ## Properties -/

/-- C15, elements: the elements of the new groups taken together are the elements of the old
groups, each exactly once, with unchanged data; the vertices are unchanged. -/
theorem C15_split_elements_preserved {m : FMesh N P A} (hwf : ∀ g ∈ m.groups, g.WF)
    {flags : List Int} {M : FMesh N P A}
    {mp : List ((Nat × Int) × Nat)} (h : splitMeshGroups m flags = some (M, mp)) :
    M.vertices = m.vertices ∧ (elementData M.groups).Perm (elementData m.groups) := by
  obtain ⟨hlen, hgs, _, hv, _⟩ := splitMeshGroups_some h
  refine ⟨hv, ?_⟩
  rw [hgs]
  unfold elementData
  rw [List.flatMap_map]
  conv_rhs => rw [← splitPieces_groups m.groups, List.flatMap_map]
  unfold splitPieces
  rw [List.flatMap_assoc]
  apply flatMap_congr_perm
  rintro ⟨⟨b, grp⟩, g⟩ hm
  rw [List.mem_zipIdx_iff_getElem?] at hm
  obtain ⟨h1, h2⟩ := List.getElem?_zip_eq_some.1 hm
  have hlt : g < (m.groups.map ElGroup.nelements).length := by
    rw [List.length_map]; exact (List.getElem?_eq_some_iff.1 h2).1
  rw [baseElementNrs_getElem? _ _ hlt] at h1
  simp only [Option.some.injEq] at h1
  subst h1
  simp only
  have hfl := length_groupFlags h2 hlen
  unfold groupFlags at hfl
  generalize (flags.drop ((m.groups.map ElGroup.nelements).take g).sum).take grp.nelements = fl at *
  have hgw := hwf grp (List.mem_of_getElem? h2)
  unfold splitGroup
  rw [List.flatMap_map]
  simp only [selectFlag_zip fl _ _ _ hgw.1]
  rw [← List.map_flatMap]
  apply List.Perm.map
  unfold selectFlag
  rw [← List.map_flatMap]
  have hp := flatMap_filter_perm (fun x : (List Nat × N) × Int => x.2) (npUniqueInt fl)
    (nodup_npUniqueInt fl) ((grp.vertexIndices.zip grp.nodes).zip fl)
  refine (hp.map Prod.fst).trans (List.Perm.of_eq ?_)
  rw [List.filter_eq_self.2]
  · rw [List.map_fst_zip]
    rw [List.length_zip, hgw.1, hfl]
    simp [ElGroup.nelements]
  · rintro ⟨x, f⟩ hx
    simpa using mem_npUniqueInt.2 (List.of_mem_zip hx).2

/-- C15, the map: it has at most one entry per `(group, flag)`; there is one exactly when some
element of the group carries the flag; and the new group it points to has the old group's kind and
faces and consists of exactly the old group's elements carrying the flag, in their old order (`idx`
lists their old positions).  Every new group is pointed to by exactly one key. -/
theorem C15_split_map_exact {m : FMesh N P A} (hwf : ∀ g ∈ m.groups, g.WF)
    {flags : List Int} {M : FMesh N P A}
    {mp : List ((Nat × Int) × Nat)} (h : splitMeshGroups m flags = some (M, mp)) :
    (mp.map Prod.fst).Nodup ∧ mp.map Prod.snd = List.range M.groups.length ∧
    (∀ g flag, (∃ G, ((g, flag), G) ∈ mp) ↔ ∃ i, HasFlag m.groups flags g i flag) ∧
    (∀ g flag G, ((g, flag), G) ∈ mp → ∃ (grp new : ElGroup N) (idx : List Nat), m.groups[g]? = some grp ∧
      M.groups[G]? = some new ∧ new.kind = grp.kind ∧ new.fvi = grp.fvi ∧
      idx.Pairwise (· < ·) ∧ (∀ i, i ∈ idx ↔ HasFlag m.groups flags g i flag) ∧
      new.nodes.length = idx.length ∧ new.vertexIndices.length = idx.length ∧
      ∀ j i : Nat, idx[j]? = some i → new.nodes[j]? = grp.nodes[i]? ∧
        new.vertexIndices[j]? = grp.vertexIndices[i]?) := by
  obtain ⟨hlen, hgs, hmp, hv, _⟩ := splitMeshGroups_some h
  have hmem : ∀ k G, (k, G) ∈ mp ↔ ∃ grp, (splitPieces m.groups flags)[G]? = some (k, grp) := by
    intro k G
    rw [hmp, List.mem_map]
    constructor
    · rintro ⟨⟨⟨k', grp⟩, G'⟩, hm, he⟩
      simp only [Prod.mk.injEq] at he
      obtain ⟨rfl, rfl⟩ := he
      exact ⟨grp, List.mem_zipIdx_iff_getElem?.1 hm⟩
    · rintro ⟨grp, hm⟩
      exact ⟨((k, grp), G), List.mem_zipIdx_iff_getElem?.2 hm, rfl⟩
  refine ⟨?_, ?_, ?_, ?_⟩
  · have : mp.map Prod.fst = (splitPieces m.groups flags).map Prod.fst := by
      rw [hmp, List.map_map]
      conv_rhs => rw [← List.zipIdx_map_fst 0 (splitPieces m.groups flags)]
      rw [List.map_map]; rfl
    rw [this]; exact splitPieces_keys_nodup _ _
  · rw [hmp, List.map_map, hgs, List.length_map, List.range_eq_range',
      ← List.zipIdx_map_snd 0 (splitPieces m.groups flags)]; rfl
  · intro g flag
    constructor
    · rintro ⟨G, hG⟩
      obtain ⟨new, hnew⟩ := (hmem _ _).1 hG
      obtain ⟨g', grp, hg, hp⟩ := mem_splitPieces.1 (List.mem_of_getElem? hnew)
      obtain ⟨f, hf, he⟩ := List.mem_map.1 hp
      simp only [Prod.mk.injEq] at he
      obtain ⟨⟨rfl, rfl⟩, _⟩ := he
      obtain ⟨i, hi⟩ := List.mem_iff_getElem?.1 (mem_npUniqueInt.1 hf)
      exact ⟨i, (groupFlags_getElem? hg f).1 hi⟩
    · rintro ⟨i, hi⟩
      have hi' := hi
      obtain ⟨e, ⟨n, hn, _, _⟩, _⟩ := hi'
      rw [List.getElem?_map] at hn
      obtain ⟨grp, hg, rfl⟩ := Option.map_eq_some_iff.1 hn
      have hf := List.mem_of_getElem? ((groupFlags_getElem? hg flag).2 hi)
      have hp := mem_splitPieces.2 ⟨g, grp, hg,
        List.mem_map.2 ⟨flag, mem_npUniqueInt.2 hf, rfl⟩⟩
      obtain ⟨G, hG⟩ := List.mem_iff_getElem?.1 hp
      exact ⟨G, (hmem _ _).2 ⟨_, hG⟩⟩
  · intro g flag G hG
    obtain ⟨new, hnew⟩ := (hmem _ _).1 hG
    obtain ⟨g', grp, hg, hp⟩ := mem_splitPieces.1 (List.mem_of_getElem? hnew)
    obtain ⟨f, hf, he⟩ := List.mem_map.1 hp
    simp only [Prod.mk.injEq] at he
    obtain ⟨⟨rfl, rfl⟩, rfl⟩ := he
    have hgw := hwf grp (List.mem_of_getElem? hg)
    have hl := length_groupFlags hg hlen
    have hlt : ∀ i ∈ flagPositions (groupFlags m.groups flags g' grp.nelements) f,
        i < grp.nelements := by
      intro i hi
      rw [← hl]
      exact (List.getElem?_eq_some_iff.1 (mem_flagPositions.1 hi)).1
    have e1 := selectFlag_eq (groupFlags m.groups flags g' grp.nelements) f grp.nodes
      (by rw [hl]; rfl)
    have e2 := selectFlag_eq (groupFlags m.groups flags g' grp.nelements) f grp.vertexIndices
      (by rw [hl]; exact hgw.1)
    refine ⟨grp, ⟨grp.kind, grp.fvi, selectFlag (groupFlags m.groups flags g' grp.nelements) f
        grp.vertexIndices, selectFlag (groupFlags m.groups flags g' grp.nelements) f grp.nodes⟩, flagPositions (groupFlags m.groups flags g' grp.nelements) f, hg,
      by rw [hgs, List.getElem?_map, hnew, Option.map_some], rfl, rfl, flagPositions_lt _ _,
      fun i => mem_flagPositions.trans (groupFlags_getElem? hg f), ?_, ?_, ?_⟩
    · simp only [e1]; exact length_filterMap_pos hlt
    · simp only [e2]; exact length_filterMap_pos (by rw [hgw.1]; exact hlt)
    · intro j i hj
      simp only [e1, e2]
      rw [getElem?_filterMap_pos (by exact hlt), getElem?_filterMap_pos (by rw [hgw.1]; exact hlt), hj]
      exact ⟨rfl, rfl⟩

/-- C15: splitting succeeds on every mesh with at least one group when there is one flag per
element. -/
theorem C15_split_defined (m : FMesh N P A) (flags : List Int) (hne : m.groups ≠ [])
    (hlen : flags.length = nelements (m.groups.map ElGroup.nelements)) :
    ∃ r, splitMeshGroups m flags = some r := by
  simp [splitMeshGroups, hlen, hne]

/-- Non-vacuity: three groups out of two, with a flag repeated across groups. -/
example : (splitMeshGroups exMergeB [42, -1]).map (fun r => r.2) =
      some [((0, 42), 0), ((1, -1), 1)] ∧
    (splitMeshGroups exMergeA [42, -1]).map (fun r => (r.1.groups.map ElGroup.vertexIndices, r.2)) =
      some ([[[1, 3, 2]], [[0, 1, 2]]], [((0, -1), 0), ((0, 42), 1)]) ∧
    (∀ g ∈ exMergeA.groups, g.WF) :=
  ⟨by decide, by decide, by
    obtain ⟨vs, h⟩ := exMerge_ok exMergeA (by simp)
    exact h.wf⟩

/-! ### Adjacency after splitting -/

/-- Element `j` of new group `G` is element `i` of old group `g`: the elements of `g` with the flag of
`i` keep their order. (Specification or proof vocabulary, no code.) -/
def SplitElem (m : FMesh N P A) (flags : List Int) (mp : List ((Nat × Int) × Nat))
    (g i G j : Nat) : Prop :=
  ∃ (flag : Int) (idx : List Nat), ((g, flag), G) ∈ mp ∧ idx.Pairwise (· < ·) ∧
    (∀ i', i' ∈ idx ↔ HasFlag m.groups flags g i' flag) ∧ idx[j]? = some i

/-- Face `F` of the split mesh is face `f` of the original.
(Specification or proof vocabulary, no code.) -/
def SplitFace (m : FMesh N P A) (flags : List Int) (mp : List ((Nat × Int) × Nat))
    (f F : FaceId) : Prop :=
  F.face = f.face ∧ SplitElem m flags mp f.grp f.el F.grp F.el

theorem sorted_ext {l l' : List Nat} (h : l.Pairwise (· < ·)) (h' : l'.Pairwise (· < ·))
    (hm : ∀ i, i ∈ l ↔ i ∈ l') : l = l' :=
  List.Perm.eq_of_pairwise (fun a b _ _ h1 h2 => by omega) h h'
    ((List.perm_ext_iff_of_nodup (h.imp fun h => Nat.ne_of_lt h)
      (h'.imp fun h => Nat.ne_of_lt h)).2 hm)

theorem hasFlag_unique {groups : List (ElGroup N)} {flags : List Int} {g i : Nat} {a b : Int}
    (ha : HasFlag groups flags g i a) (hb : HasFlag groups flags g i b) : a = b := by
  obtain ⟨e, ⟨_, _, _, rfl⟩, h1⟩ := ha
  obtain ⟨e', ⟨_, _, _, rfl⟩, h2⟩ := hb
  rw [h1] at h2
  exact Option.some.inj h2

/-- The faces of the split mesh are the original faces with the original vertices. -/
theorem faceEmb_split {m : FMesh N P A} (hwf : ∀ g ∈ m.groups, g.WF)
    {flags : List Int} {M : FMesh N P A} {mp : List ((Nat × Int) × Nat)}
    (h : splitMeshGroups m flags = some (M, mp)) :
    FaceEmb [m.groups] M.groups (fun k f F => k = 0 ∧ SplitFace m flags mp f F) (fun _ => 0) := by
  obtain ⟨hfst, hsnd, hkey, hdata⟩ := C15_split_map_exact hwf h
  have hlen := (splitMeshGroups_some h).1
  have hget0 : ∀ {k : Nat} {gs : List (ElGroup N)}, [m.groups][k]? = some gs →
      k = 0 ∧ gs = m.groups := by
    intro k gs hk
    cases k with
    | zero => simp at hk; exact ⟨rfl, hk.symm⟩
    | succ k => simp at hk
  have hsndN : (mp.map Prod.snd).Nodup := by rw [hsnd]; exact List.nodup_range
  refine ⟨?_, ?_, ?_, ?_, ?_⟩
  · intro k gs f hk hf
    obtain ⟨rfl, rfl⟩ := hget0 hk
    obtain ⟨grp, hg, hface, hel⟩ := hf
    have hgl : IsGlobalNr (m.groups.map ElGroup.nelements) f.grp f.el
        (((m.groups.map ElGroup.nelements).take f.grp).sum + f.el) :=
      ⟨grp.nelements, by simp [hg], hel, rfl⟩
    have hlt := (C01_numbering_bijective _ _).1.2 ⟨_, _, hgl⟩
    rw [← hlen] at hlt
    have hfl : HasFlag m.groups flags f.grp f.el _ := ⟨_, hgl, List.getElem?_eq_getElem hlt⟩
    obtain ⟨G, hG⟩ := (hkey _ _).2 ⟨_, hfl⟩
    obtain ⟨grp', new, idx, h1, h2, h3, h4, h5, h6, h7, h8, h9⟩ := hdata _ _ _ hG
    obtain ⟨j, hj⟩ := List.mem_iff_getElem?.1 ((h6 f.el).2 hfl)
    refine ⟨⟨G, j, f.face⟩, ⟨rfl, rfl, _, idx, hG, h5, h6, hj⟩, new, h2, ?_, ?_⟩
    · rw [hg] at h1
      obtain rfl := Option.some.inj h1
      simpa [ElGroup.nfaces, h4] using hface
    · show j < new.nodes.length
      rw [h7]
      exact (List.getElem?_eq_some_iff.1 hj).1
  · rintro ⟨G, j, face⟩ ⟨new', hG, hface, hel⟩
    have hGl : G ∈ mp.map Prod.snd := by
      rw [hsnd]
      exact List.mem_range.2 (List.getElem?_eq_some_iff.1 hG).1
    obtain ⟨⟨⟨g, flag⟩, G'⟩, hmem, rfl⟩ := List.mem_map.1 hGl
    obtain ⟨grp, new, idx, h1, h2, h3, h4, h5, h6, h7, h8, h9⟩ := hdata _ _ _ hmem
    simp only at hG hface hel
    rw [hG] at h2
    obtain rfl := Option.some.inj h2
    have hj : j < idx.length := by rw [← h7]; exact hel
    refine ⟨0, m.groups, ⟨g, idx[j], face⟩, rfl, ⟨grp, h1, ?_, ?_⟩, rfl, rfl, flag, idx, hmem, h5,
      h6, List.getElem?_eq_getElem hj⟩
    · simpa [ElGroup.nfaces, h4] using hface
    · obtain ⟨e, ⟨n, hn, hi, _⟩, _⟩ := (h6 idx[j]).1 (List.getElem_mem _)
      simp only [List.getElem?_map, h1, Option.map_some, Option.some.injEq] at hn
      subst hn
      exact hi
  · rintro k ⟨g, i, fc⟩ k' ⟨g', i', fc'⟩ ⟨G, j, FC⟩ ⟨rfl, hf, flag, idx, hm, hs, hi, hx⟩
      ⟨rfl, hf', flag', idx', hm', hs', hi', hx'⟩
    have := (List.nodup_map_iff_inj_on (List.Nodup.of_map _ hfst)).1 hsndN _ hm _ hm' rfl
    simp only [Prod.mk.injEq] at this hf hf' hx hx' hi hi'
    obtain ⟨⟨rfl, rfl⟩, _⟩ := this
    have : idx = idx' := sorted_ext hs hs' fun i => (hi i).trans (hi' i).symm
    subst this
    rw [hx] at hx'
    obtain rfl := Option.some.inj hx'
    exact ⟨rfl, by rw [← hf, ← hf']⟩
  · rintro k ⟨g, i, fc⟩ ⟨G, j, FC⟩ ⟨G', j', FC'⟩ ⟨rfl, hf, flag, idx, hm, hs, hi, hx⟩
      ⟨_, hf', flag', idx', hm', hs', hi', hx'⟩
    simp only at hf hf' hx hx' hi hi' hm hm'
    have hff : flag = flag' := hasFlag_unique ((hi i).1 (List.mem_of_getElem? hx))
      ((hi' i).1 (List.mem_of_getElem? hx'))
    subst hff
    have := (List.nodup_map_iff_inj_on (List.Nodup.of_map _ hfst)).1 hfst _ hm _ hm' rfl
    simp only [Prod.mk.injEq, true_and] at this
    subst this
    have : idx = idx' := sorted_ext hs hs' fun i => (hi i).trans (hi' i).symm
    subst this
    have hn : idx.Nodup := hs.imp fun h => Nat.ne_of_lt h
    have : j = j' := (List.getElem?_inj (List.getElem?_eq_some_iff.1 hx).1 hn).1 (hx.trans hx'.symm)
    subst this
    rw [hf, hf']
  · intro k gs f F hk hf ⟨_, hface, flag, idx, hm, hs, hi, hx⟩
    obtain ⟨rfl, rfl⟩ := hget0 hk
    obtain ⟨grp, new, idx', h1, h2, h3, h4, h5, h6, h7, h8, h9⟩ := hdata _ _ _ hm
    have : idx = idx' := sorted_ext hs h5 fun i => (hi i).trans (h6 i).symm
    subst this
    have hv := (h9 _ _ hx).2
    have hid : (List.map fun x : Nat => x + 0) = id := by funext l; simp
    simp only [hid, Option.map_id]
    simp only [faceVerts, h1, h2, hface, id, Option.bind_eq_bind, Option.bind_some, h4, hv]

/-- C15, facial adjacency: computed for the split mesh, two faces are neighbours exactly when the
original faces are, and a face is a boundary face exactly when the original is. For meshes without a
face shared by three elements. -/
theorem C15_split_facial {m : FMesh N P A} {vs : List P} (hok : m.OK vs)
    (htwo : AtMostTwoSides m.groups) (aff0 : A)
    {flags : List Int} {M : FMesh N P A} {mp : List ((Nat × Int) × Nat)}
    (h : splitMeshGroups m flags = some (M, mp)) :
    (∀ f, IsFace m.groups f → ∃! F, SplitFace m flags mp f F) ∧
    (∀ F F', IsNeighbor (computeFacial aff0 M.groups [] []) F F' ↔
      ∃ f f', SplitFace m flags mp f F ∧ SplitFace m flags mp f' F' ∧
        IsNeighbor (computeFacial aff0 m.groups [] []) f f') ∧
    (∀ f F, IsFace m.groups f → SplitFace m flags mp f F →
      (InBoundary (computeFacial aff0 M.groups [] []) .reallyAll F ↔
        InBoundary (computeFacial aff0 m.groups [] []) .reallyAll f)) := by
  have he := faceEmb_split hok.wf h
  have hb : BasesOK [m.groups] (fun _ => 0) := by
    refine ⟨?_⟩
    intro k k' gs gs' g g' row row' v v' hk hk' _ _ _ _ _ _ heq
    rcases k with _ | k
    · rcases k' with _ | k'
      · exact ⟨rfl, heq⟩
      · simp at hk'
    · simp at hk
  have hne : ∀ gs ∈ [m.groups], ∀ g ∈ gs, ∀ ref ∈ g.fvi, ref ≠ [] := by simpa using hok.faces
  have hwf : ∀ gs ∈ [m.groups], ∀ g ∈ gs, g.WF := by simpa using hok.wf
  have hwf' : ∀ g ∈ M.groups, g.WF := by
    intro g' hg'
    obtain ⟨hfst, hsnd, hkey, hdata⟩ := C15_split_map_exact hok.wf h
    obtain ⟨G, hG⟩ := List.mem_iff_getElem?.1 hg'
    have hGl : G ∈ mp.map Prod.snd := by
      rw [hsnd]
      exact List.mem_range.2 (List.getElem?_eq_some_iff.1 hG).1
    obtain ⟨⟨⟨g, flag⟩, G'⟩, hmem, rfl⟩ := List.mem_map.1 hGl
    obtain ⟨grp, new, idx, h1, h2, h3, h4, h5, h6, h7, h8, h9⟩ := hdata _ _ _ hmem
    rw [hG] at h2
    obtain rfl := Option.some.inj h2
    obtain ⟨w1, w2⟩ := hok.wf grp (List.mem_of_getElem? h1)
    refine ⟨by rw [h8, ← h7], ?_⟩
    intro row hrow
    obtain ⟨j, hj⟩ := List.mem_iff_getElem?.1 hrow
    have hjl : j < idx.length := by rw [← h8]; exact (List.getElem?_eq_some_iff.1 hj).1
    rw [(h9 j _ (List.getElem?_eq_getElem hjl)).2] at hj
    rw [h4]
    exact w2 row (List.mem_of_getElem? hj)
  refine ⟨fun f hf => ?_, fun F F' => ?_, fun f F hf hF => ?_⟩
  · obtain ⟨F, hF, _⟩ := he.total 0 _ f rfl hf
    exact ⟨F, hF.2, fun F' hF' => he.func 0 f _ _ ⟨rfl, hF'⟩ hF⟩
  · rw [isNeighbor_emb he hb hne (by simpa using htwo) hwf hwf' aff0]
    constructor
    · rintro ⟨k, gs, f, f', hk, h1, h2, h3⟩
      obtain ⟨rfl, h1⟩ := h1
      simp only [List.getElem?_cons_zero, Option.some.injEq] at hk
      subst hk
      exact ⟨f, f', h1, h2.2, h3⟩
    · rintro ⟨f, f', h1, h2, h3⟩
      exact ⟨0, _, f, f', rfl, ⟨rfl, h1⟩, ⟨rfl, h2⟩, h3⟩
  · exact inBoundary_emb he hb hne hwf hwf' aff0 rfl hf ⟨rfl, hF⟩

/-- C15: whatever adjacency the original had, asking the split mesh for its adjacency computes it
anew if the original is conforming and has vertices, and is refused otherwise. -/
theorem C15_split_access {m : FMesh N P A} {flags : List Int} {M : FMesh N P A}
    {mp : List ((Nat × Int) × Nat)} (h : splitMeshGroups m flags = some (M, mp)) (aff0 : A)
    (iter : List Nat → List Nat) :
    M.ambientDim = m.ambientDim ∧
    (m.vertices.isSome → m.lazy.conforming = some true →
      M.facial aff0 = .ok (computeFacial aff0 M.groups [] []) ∧
      ∀ r, nodalAdjacency iter ((M.vertices.getD []).length) M.groups = some r →
        M.nodal iter = .ok r) ∧
    (¬ (m.vertices.isSome ∧ m.lazy.conforming = some true) →
      M.facial aff0 = .unavailable ∧ M.nodal iter = .unavailable) := by
  obtain ⟨_, _, _, _, hd, hlazy⟩ := splitMeshGroups_some h
  refine ⟨hd, fun h1 h2 => ?_, fun hn => ?_⟩
  · refine ⟨?_, fun r hr => ?_⟩
    · simp [FMesh.facial, hlazy, LazyMesh.make, accessSlot, h1, h2]
    · simp [FMesh.nodal, hlazy, LazyMesh.make, accessSlot, h1, h2, hr]
  · have hc : (if m.vertices.isSome = true then m.lazy.conforming else none) ≠ some true := by
      intro hc
      apply hn
      split at hc
      · exact ⟨by assumption, hc⟩
      · simp at hc
    constructor
    · simp only [FMesh.facial, hlazy, LazyMesh.make, if_neg hc, accessSlot]
    · simp only [FMesh.nodal, hlazy, LazyMesh.make, if_neg hc, accessSlot]

/-- Splitting the two triangles of `exMergeA`: the hypotheses hold, every face has its image, and the
split mesh computes its own adjacency. -/
example : ∃ M mp, splitMeshGroups exMergeA [42, -1] = some (M, mp) ∧
    (∃! F, SplitFace exMergeA [42, -1] mp ⟨0, 1, 2⟩ F) ∧
    M.facial 0 = .ok (computeFacial 0 M.groups [] []) := by
  obtain ⟨⟨M, mp⟩, h⟩ := C15_split_defined exMergeA [42, -1] (by simp [exMergeA]) (by decide)
  obtain ⟨vs, hok⟩ := exMerge_ok exMergeA (by simp)
  refine ⟨M, mp, h, ?_, ((C15_split_access h 0 id).2.1 rfl rfl).1⟩
  exact (C15_split_facial hok (atMostTwo_of_check (by decide +kernel)) 0 h).1 _
    ⟨_, rfl, by decide, by decide⟩

end Meshmode
