import Verif.Mesh.FacialProps

/-!
The order in which computed facial adjacency is listed: interior groups by the number of the neighboring group, the
rows of each by face and element, boundary faces by face and element.
-/

namespace Meshmode

variable {N A : Type}

/-- Row `r` is listed before row `s`: by face, then element, then face and element of the neighbor.
(Specification or proof vocabulary, no code.) -/
def AdjRow.Before (r s : AdjRow) : Prop :=
  r.face < s.face ∨ r.face = s.face ∧ (r.el < s.el ∨ r.el = s.el ∧ (r.nface < s.nface ∨ r.nface = s.nface ∧ r.nel ≤ s.nel))

/-- The neighboring group of an interior group. (Specification or proof vocabulary, no code.) -/
def Fag.interiorNeighbor : Fag A → Option Nat
  | .interior _ j _ _ => some j
  | _ => none

/-- Faces by group, face and element. (Specification or proof vocabulary, no code.) -/
def FaceId.Before (a b : FaceId) : Prop :=
  a.grp < b.grp ∨ a.grp = b.grp ∧ (a.face < b.face ∨ a.face = b.face ∧ a.el < b.el)

theorem groupFaceIds_before (i : Nat) (g : ElGroup N) : (groupFaceIds i g).Pairwise FaceId.Before := by
  unfold groupFaceIds
  rw [List.pairwise_flatMap]
  refine ⟨fun f _ => ?_, ?_⟩
  · rw [List.pairwise_map]
    exact List.pairwise_lt_range.imp fun h => .inr ⟨rfl, .inr ⟨rfl, h⟩⟩
  · refine List.pairwise_lt_range.imp fun {a b} h x hx y hy => ?_
    simp only [List.mem_map] at hx hy
    obtain ⟨_, _, rfl⟩ := hx
    obtain ⟨_, _, rfl⟩ := hy
    exact .inr ⟨rfl, .inl h⟩

theorem allFaceIds_before (groups : List (ElGroup N)) : (allFaceIds groups).Pairwise FaceId.Before := by
  unfold allFaceIds
  rw [List.pairwise_flatMap]
  refine ⟨fun p _ => groupFaceIds_before _ _, ?_⟩
  rw [List.pairwise_iff_getElem]
  intro i j hi hj hij x hx y hy
  simp only [List.getElem_zipIdx, mem_groupFaceIds] at hx hy
  exact .inl (by omega)

theorem pairsBothWays_sorted (pairs : List (Nat × Nat)) :
    (pairsBothWays pairs).Pairwise fun p q => p.1 < q.1 ∨ (p.1 = q.1 ∧ p.2 ≤ q.2) := by
  have := pairwise_stableSort (le := pairLe)
    (by intro a b c; simp only [pairLe, decide_eq_true_eq]; omega)
    (by intro a b; simp only [pairLe, Bool.or_eq_true, decide_eq_true_eq]; omega) (pairs ++ pairs.map Prod.swap)
  exact this.imp fun h => by simpa [pairLe] using h

theorem before_of_lt {ids : List FaceId} (h : ids.Pairwise FaceId.Before) {i j : Nat} {a b : FaceId}
    (ha : ids[i]? = some a) (hb : ids[j]? = some b) (hij : i < j) : a.Before b := by
  obtain ⟨hi, rfl⟩ := List.getElem?_eq_some_iff.1 ha
  obtain ⟨hj, rfl⟩ := List.getElem?_eq_some_iff.1 hb
  exact List.pairwise_iff_getElem.1 h i j hi hj hij

theorem faceIdPairs_sorted {ids : List FaceId} (h : ids.Pairwise FaceId.Before) (pairs : List (Nat × Nat)) :
    (faceIdPairs ids pairs).Pairwise fun p q => p.1.Before q.1 ∨ p.1 = q.1 ∧ (p.2.Before q.2 ∨ p.2 = q.2) := by
  unfold faceIdPairs
  rw [List.pairwise_filterMap]
  refine (pairsBothWays_sorted pairs).imp fun {p q} hpq x hx y hy => ?_
  obtain ⟨a, ha, hx⟩ := Option.bind_eq_some_iff.1 hx
  obtain ⟨b, hb, hx⟩ := Option.bind_eq_some_iff.1 hx
  obtain ⟨c, hc, hy⟩ := Option.bind_eq_some_iff.1 hy
  obtain ⟨e, he, hy⟩ := Option.bind_eq_some_iff.1 hy
  cases hx
  cases hy
  rcases hpq with h1 | ⟨h1, h2⟩
  · exact .inl (before_of_lt h ha hc h1)
  · rw [h1, hc] at ha
    cases ha
    refine .inr ⟨rfl, ?_⟩
    rcases Nat.lt_or_eq_of_le h2 with h2 | h2
    · exact .inl (before_of_lt h hb he h2)
    · rw [h2, he] at hb
      cases hb
      exact .inr rfl

theorem unmatchedFaces_before (fpairs : List (FaceId × FaceId)) (i : Nat) (g : ElGroup N) :
    (unmatchedFaces fpairs i g).Pairwise faceMajorLt := by
  unfold unmatchedFaces
  rw [List.pairwise_map]
  refine List.Pairwise.imp_of_mem ?_ ((groupFaceIds_before i g).filter _)
  intro a b ha hb h
  have h1 := (mem_groupFaceIds.1 (List.mem_filter.1 ha).1).1
  have h2 := (mem_groupFaceIds.1 (List.mem_filter.1 hb).1).1
  rcases h with h | ⟨-, h⟩
  · omega
  · exact h

/-- **C02**: the interior groups are listed by the number of the neighboring group, one for each, and the rows of each
by face and element, whatever the order of the vertices and the sort used. -/
theorem C02_row_order {groups : List (ElGroup N)} (aff0 : A) (dict : List (List Nat × List BTag)) (btags : List BTag)
    {i : Nat} {l : List (Fag A)} (h : (computeFacial aff0 groups dict btags)[i]? = some l) :
    (l.filterMap Fag.interiorNeighbor).Pairwise (· < ·) ∧
    ∀ a j rows aff, Fag.interior a j rows aff ∈ l → a = i ∧ rows.Pairwise AdjRow.Before := by
  rw [computeFacial, completeFacial_getElem?, rawFacial_getElem?, Option.map_map, Option.map_eq_some_iff] at h
  obtain ⟨g, -, rfl⟩ := h
  refine ⟨?_, fun a j rows aff hm => ?_⟩
  · have hb : (boundaryGroups groups dict btags (meshFacePairs groups) i g (A := A)).filterMap Fag.interiorNeighbor =
        [] := by
      rw [List.filterMap_eq_nil_iff]
      intro fg hfg
      cases fg with
      | interior a b r aff => exact (boundaryGroups_not_interior hfg).elim
      | boundary _ _ _ => rfl
      | interPart _ _ _ _ _ => rfl
    have hc : ∀ fags : List (Fag A), (completeGroup i fags).filterMap Fag.interiorNeighbor =
        fags.filterMap Fag.interiorNeighbor := by
      intro fags
      simp only [completeGroup, List.filterMap_append]
      split <;> split <;> split <;> simp [Fag.interiorNeighbor]
    simp only [Function.comp_apply, hc, List.filterMap_append, hb, List.append_nil]
    simp only [interiorGroups, List.filterMap_map]
    have : ∀ l' : List Nat, l'.filterMap (Fag.interiorNeighbor ∘ fun ing => (Fag.interior i ing
        ((((meshFacePairs groups).filter fun p => p.1.grp == i).filter fun p => p.2.grp == ing).map
          fun p => ⟨p.1.el, p.1.face, p.2.el, p.2.face⟩) aff0 : Fag A)) = l' := by
      intro l'
      exact (List.filterMap_congr fun _ _ => rfl).trans List.filterMap_some
    rw [this]
    exact pairwise_lt_npUnique _
  · rw [Function.comp_apply, mem_completeGroup_interior, List.mem_append] at hm
    obtain hm := hm.resolve_right boundaryGroups_not_interior
    rw [mem_interiorGroups] at hm
    obtain ⟨rfl, -, -, rfl⟩ := hm
    refine ⟨rfl, ?_⟩
    rw [List.pairwise_map]
    refine List.Pairwise.imp_of_mem ?_
      (((faceIdPairs_sorted (allFaceIds_before groups) (matchFaces groups (allFaceIds groups) id)).filter _).filter _)
    intro p q hp hq hpq
    simp only [List.mem_filter, beq_iff_eq] at hp hq
    obtain ⟨⟨-, hp1⟩, hp2⟩ := hp
    obtain ⟨⟨-, hq1⟩, hq2⟩ := hq
    simp only [AdjRow.Before]
    rcases hpq with (h1 | ⟨-, h1⟩) | ⟨h1, (h2 | ⟨-, h2⟩) | h2⟩
    · omega
    · omega
    · omega
    · rw [h1]; omega
    · rw [h1, h2]; omega

/-- **C06**: the faces of every boundary group, from a tag or completed, are listed by face and element. -/
theorem C06_boundary_order {groups : List (ElGroup N)} (aff0 : A) (dict : List (List Nat × List BTag))
    (btags : List BTag) {i : Nat} {l : List (Fag A)} (h : (computeFacial aff0 groups dict btags)[i]? = some l)
    {a : Nat} {t : BTag} {fs : List ElFace} (hm : Fag.boundary a t fs ∈ l) :
    a = i ∧ fs.Pairwise fun x y => x.face < y.face ∨ x.face = y.face ∧ x.el < y.el := by
  rw [computeFacial, completeFacial_getElem?, rawFacial_getElem?, Option.map_map, Option.map_eq_some_iff] at h
  obtain ⟨g, -, rfl⟩ := h
  simp only [Function.comp_apply, completeGroup, List.mem_append] at hm
  rcases hm with (((hm | hm) | hm) | hm) | hm
  · simp [interiorGroups] at hm
  · unfold boundaryGroups at hm
    simp only at hm
    split at hm
    · cases hm
    rw [List.mem_append, List.mem_filterMap] at hm
    rcases hm with ⟨t', -, ht⟩ | hm
    · split at ht
      · cases ht
      · cases ht
        exact ⟨rfl, (unmatchedFaces_before _ _ _).filter _⟩
    · split at hm
      · cases List.mem_singleton.1 hm
        exact ⟨rfl, unmatchedFaces_before _ _ _⟩
      · cases hm
  · split at hm
    · cases hm
    · simp only [List.mem_singleton, Fag.boundary.injEq] at hm
      obtain ⟨rfl, rfl, rfl⟩ := hm
      exact ⟨rfl, List.Pairwise.nil⟩
  · split at hm
    · cases hm
    · rw [List.mem_singleton, Fag.boundary.injEq] at hm
      obtain ⟨h1, -, h2⟩ := hm
      rw [h1, h2]
      exact ⟨rfl, pairwise_mergeBoundary _⟩
  · split at hm
    · cases hm
    · rw [List.mem_singleton, Fag.boundary.injEq] at hm
      obtain ⟨h1, -, h2⟩ := hm
      rw [h1, h2]
      exact ⟨rfl, pairwise_mergeBoundary _⟩

/-- (Example, no code.) Two triangles with a common edge in each of two groups. -/
def exRowGroups : List (ElGroup Unit) :=
  [⟨0, [[0, 1], [2, 0], [1, 2]], [[0, 1, 2], [3, 2, 1]], [(), ()]⟩, ⟨0, [[0, 1], [2, 0], [1, 2]], [[0, 1, 4]], [()]⟩]

example : (computeFacial () exRowGroups [] [])[0]? = some
    [.interior 0 0 [⟨0, 2, 1, 2⟩, ⟨1, 2, 0, 2⟩] (), .interior 0 1 [⟨0, 0, 0, 0⟩] (),
     .boundary 0 .all [⟨1, 0⟩, ⟨0, 1⟩, ⟨1, 1⟩], .boundary 0 .none [], .boundary 0 .reallyAll [⟨1, 0⟩, ⟨0, 1⟩, ⟨1, 1⟩]] := by
  decide +kernel

end Meshmode
