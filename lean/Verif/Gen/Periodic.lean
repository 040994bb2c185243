import Verif.Gen.PeriodicFaces
import Verif.Mesh.GlueDefined

/-!
# Periodic box meshes: model (C60)

The branches `periodic[idim]` of `generate_box_mesh` (meshmode/mesh/generation.py:1541-1549, 1616-1638): the
opposite sides of the box get tags and are glued.
Not modelled: rounding; the tests in `Mesh.copy`.  The dictionary `boundary_tag_to_face` that the caller
passes in is changed by the code; here it is a value.
-/
namespace Meshmode

variable {N K : Type}

/-! ## Model -/

/-- `AffineMap` without matrix: only such maps occur here. Code: meshmode/mesh/tools.py:138-178 and
meshmode/mesh/generation.py:1631. -/
abbrev Shift (K : Type) := Option (List K)

/-- `AffineMap.inverted` without matrix, meshmode/mesh/tools.py:180-194. -/
def Shift.inv [Neg K] (a : Shift K) : Shift K := a.map (·.map (- ·))

/-- `AffineMap.__call__` without matrix, meshmode/mesh/tools.py:196-208. -/
def Shift.apply [Add K] (a : Shift K) (p : List K) : List K :=
  match a with
  | none => p
  | some o => List.zipWith (· + ·) p o

/-- The names `f"periodic_{lower_face}"`, `f"periodic_{upper_face}"`, meshmode/mesh/generation.py:1545-1548
(the numbers 0 to 5 of user tags stand for these strings). -/
def periodicTag (side : Bool × Nat) : BTag := .user (2 * side.2 + if side.1 then 1 else 0) false

/-- `d[t] = v`, meshmode/mesh/generation.py:1547-1548. -/
def tagAssign (d : List (BTag × List (Bool × Nat))) (t : BTag) (v : List (Bool × Nat)) :
    List (BTag × List (Bool × Nat)) :=
  if d.any fun kv => kv.1 == t then d.map fun kv => if kv.1 == t then (t, v) else kv
  else d ++ [(t, v)]

/-- The tags of the periodic sides are added, meshmode/mesh/generation.py:1543-1548. -/
def periodicTags (dim : Nat) (periodic : List Bool) (tagToFace : List (BTag × List (Bool × Nat))) :
    List (BTag × List (Bool × Nat)) :=
  (List.range dim).foldl (fun d a => if periodic.getD a false then
    tagAssign (tagAssign d (periodicTag (false, a)) [(false, a)]) (periodicTag (true, a)) [(true, a)]
    else d) tagToFace

/-- `axis_coords[idim][-1] - axis_coords[idim][0]`, meshmode/mesh/generation.py:1626; `none` for the
`IndexError` with no points. -/
def axisExtent [Sub K] (ax : List K) : Option K :=
  match ax.head?, ax.getLast? with
  | some a, some b => some (b - a)
  | _, _ => none

/-- `offset`, meshmode/mesh/generation.py:1625-1626. -/
def axisOffset [Zero K] (dim d : Nat) (e : K) : List K :=
  (List.range dim).map fun i => if i = d then e else 0

/-- One entry of `bdry_pair_mappings_and_tols`, meshmode/mesh/generation.py:1625-1632; `eps` is the constant
`1e-12`. -/
def periodicPair [Mul K] [Sub K] [Zero K] (eps : K) (axes : List (List K)) (d : Nat) :
    Option (BdryPair (Shift K) K) :=
  (axisExtent (axes.getD d [])).map fun e =>
    ⟨periodicTag (false, d), periodicTag (true, d), some (axisOffset axes.length d e), eps * e⟩

/-- The axes that are periodic, meshmode/mesh/generation.py:1623-1624. -/
def periodicAxes (dim : Nat) (periodic : List Bool) : List Nat :=
  (List.range dim).filter fun d => periodic.getD d false

/-- Group and facial adjacency of `generate_box_mesh(axis_coords, periodic=periodic,
boundary_tag_to_face=tagToFace)`, meshmode/mesh/generation.py:1265-1638; `none` if it raises.  `enum` lists the
tags in the order in which Python happens to iterate over the set, `p2p` is as in `matchBoundaryFaces`.  (For a
mesh without tags the adjacency is computed later, with the same result.) -/
def generatePeriodicBox [Field K] (p2p : Shift K → K → List (List K) → List (List K) → List (Option Nat))
    (enum : List (List Nat × List BTag) → List BTag) (eps : K) (nodeOf : List Nat → N)
    (axes : List (List K)) (kind : BoxKind) (periodic : List Bool)
    (tagToFace : List (BTag × List (Bool × Nat))) :
    Option (ElGroup N × List (List (Fag (Shift K)))) :=
  let lens := axes.map List.length
  (generateBox nodeOf lens kind).bind fun g =>
  (boxTpl lens.length kind).bind fun T =>
  if periodic.length < lens.length then none
  else if tagToFace.any fun tf => tf.2.any fun s => decide (lens.length ≤ s.2) then none
  else
    let dict := boxTagDict (boxShape lens) (boxCellShape lens) T kind
      (periodicTags lens.length periodic tagToFace)
    let fags := computeFacial none [g] dict (enum dict)
    if periodic.any id then
      ((periodicAxes lens.length periodic).mapM (periodicPair eps axes)).bind fun bps =>
      (glueMeshBoundaries p2p Shift.inv (boxVertices axes kind) [g] fags bps).map fun fags' => (g, fags')
    else some (g, fags)

/-! ## Specification -/

/-- Square of the distance. (Specification or proof vocabulary, no code.) -/
def listDistSq [Field K] (p q : List K) : K := (List.zipWith (fun x y => (x - y) ^ 2) p q).sum

/-- The mapped point is within the tolerance, as C44 says of `find_point_to_point_mapping`.
(Specification or proof vocabulary, no code.) -/
def ShiftClose [Field K] [LinearOrder K] (a : Shift K) (t : K) (p q : List K) : Prop :=
  listDistSq (a.apply p) q < t ^ 2

/-! ## Adjacency rows -/

variable {A : Type}

theorem mem_interiorTriples {fags : List (List (Fag A))} {f f' : FaceId} {a : A} :
    (f, f', a) ∈ interiorTriples fags ↔ ∃ l i rows, fags[f.grp]? = some l ∧
      .interior i f'.grp rows a ∈ l ∧ ⟨f.el, f.face, f'.el, f'.face⟩ ∈ rows := by
  simp only [interiorTriples, List.mem_flatMap, Prod.exists, List.mem_zipIdx_iff_getElem?]
  constructor
  · rintro ⟨l, g, hl, fg, hfg, h⟩
    cases fg with
    | boundary => simp at h
    | interPart => simp at h
    | interior i j rows aff =>
      obtain ⟨r, hr, e⟩ := List.mem_map.1 h
      simp only [Prod.mk.injEq] at e
      obtain ⟨rfl, rfl, rfl⟩ := e
      exact ⟨l, i, rows, hl, hfg, hr⟩
  · rintro ⟨l, i, rows, hl, hm, hr⟩
    exact ⟨l, f.grp, hl, _, hm, List.mem_map.2 ⟨_, hr, rfl⟩⟩

theorem interiorTriples_computeFacial {groups : List (ElGroup N)} (hwf : ∀ g ∈ groups, g.WF) (aff0 : A)
    (dict : List (List Nat × List BTag)) (btags : List BTag) {f f' : FaceId} {a : A} :
    (f, f', a) ∈ interiorTriples (computeFacial aff0 groups dict btags) ↔
      (f, f') ∈ meshFacePairs groups ∧ a = aff0 := by
  rw [mem_interiorTriples]
  unfold computeFacial
  simp only [completeFacial_getElem?, rawFacial_getElem?, Option.map_map]
  constructor
  · rintro ⟨l, i, rows, hl, hm, hr⟩
    rw [Option.map_eq_some_iff] at hl
    obtain ⟨g, hg, rfl⟩ := hl
    simp only [Function.comp_apply] at hm
    rw [mem_completeGroup_interior, List.mem_append] at hm
    rcases hm with hm | hm
    · rw [mem_interiorGroups] at hm
      obtain ⟨_, h2, _, rfl⟩ := hm
      simp only [List.mem_map, List.mem_filter, beq_iff_eq, AdjRow.mk.injEq, Prod.exists] at hr
      obtain ⟨x, y, ⟨⟨hab, h1⟩, h2⟩, h3, h4, h5, h6⟩ := hr
      have : x = f := by cases x; cases f; simp_all
      have : y = f' := by cases y; cases f'; simp_all
      subst x; subst y
      exact ⟨hab, by assumption⟩
    · exact absurd hm boundaryGroups_not_interior
  · rintro ⟨h, rfl⟩
    obtain ⟨l, rows, aff, h1, h2, h3⟩ := (isNeighbor_computeFacial hwf a dict btags).2 h
    unfold computeFacial at h1
    rw [completeFacial_getElem?, rawFacial_getElem?, Option.map_map] at h1
    obtain ⟨g, hg, e⟩ := Option.map_eq_some_iff.1 h1
    have h2' := h2
    rw [← e] at h2'
    simp only [Function.comp_apply] at h2'
    rw [mem_completeGroup_interior, List.mem_append] at h2'
    rcases h2' with hm | hm
    · rw [mem_interiorGroups] at hm
      obtain ⟨_, rfl, _, _⟩ := hm
      exact ⟨l, f.grp, rows, h1, h2, h3⟩
    · exact absurd hm boundaryGroups_not_interior

theorem countP_interiorTriples_aux (f : FaceId) (fags : List (List (Fag A))) (k : Nat) :
    ((fags.zipIdx k).flatMap fun p => p.1.flatMap fun
      | .interior _ j rows aff =>
          rows.map fun r => ((⟨p.2, r.el, r.face⟩, ⟨j, r.nel, r.nface⟩, aff) : FaceId × FaceId × A)
      | _ => []).countP (fun q => decide (q.1 = f)) =
    if k ≤ f.grp then (((fags[f.grp - k]?).getD []).map fun fg =>
      fg.interiorRows.countP fun r => r.el = f.el ∧ r.face = f.face).sum else 0 := by
  induction fags generalizing k with
  | nil => simp
  | cons l fags ih =>
    rw [List.zipIdx_cons, List.flatMap_cons, List.countP_append, ih]
    have hl : (l.flatMap fun
        | .interior _ j rows aff =>
            rows.map fun r => ((⟨k, r.el, r.face⟩, ⟨j, r.nel, r.nface⟩, aff) : FaceId × FaceId × A)
        | _ => []).countP (fun q => decide (q.1 = f)) =
        if k = f.grp then (l.map fun fg =>
          fg.interiorRows.countP fun r => r.el = f.el ∧ r.face = f.face).sum else 0 := by
      rw [List.countP_flatMap]
      split
      · rename_i hk
        congr 1
        refine List.map_congr_left fun fg _ => ?_
        cases fg with
        | boundary => rfl
        | interPart => rfl
        | interior i j rows aff =>
          simp only [Function.comp, List.countP_map, Fag.interiorRows]
          refine List.countP_congr fun r _ => ?_
          cases f
          simp_all
      · rename_i hk
        rw [List.sum_eq_zero]
        intro x hx
        obtain ⟨fg, _, rfl⟩ := List.mem_map.1 hx
        cases fg with
        | boundary => rfl
        | interPart => rfl
        | interior i j rows aff =>
          simp only [Function.comp, List.countP_map]
          rw [List.countP_eq_zero]
          intro r _
          cases f
          simp_all
    rw [hl]
    rcases Nat.lt_trichotomy k f.grp with h | h | h
    · rw [if_neg (by omega), if_pos (by omega), if_pos (by omega), Nat.zero_add]
      have : f.grp - k = (f.grp - (k + 1)) + 1 := by omega
      rw [this, List.getElem?_cons_succ]
    · subst h
      rw [if_pos rfl, if_neg (by omega), if_pos (by omega)]
      simp
    · rw [if_neg (by omega), if_neg (by omega), if_neg (by omega)]

theorem countP_interiorTriples (f : FaceId) (fags : List (List (Fag A))) :
    (interiorTriples fags).countP (fun q => decide (q.1 = f)) = interiorRowCount fags f := by
  have := countP_interiorTriples_aux f fags 0
  rw [if_pos (by omega)] at this
  exact this

/-! ## The faces with a tag -/

theorem filterMap_single {α β : Type} {l : List α} (hn : l.Nodup) {a : α} (ha : a ∈ l) {f : α → Option β}
    {b : β} (hb : f a = some b) (ho : ∀ x ∈ l, x ≠ a → f x = none) : l.filterMap f = [b] := by
  induction l with
  | nil => simp at ha
  | cons x l ih =>
    obtain ⟨h1, h2⟩ := List.nodup_cons.1 hn
    rcases List.mem_cons.1 ha with rfl | ha
    · rw [List.filterMap_cons_some hb, List.cons.injEq]
      refine ⟨rfl, ?_⟩
      rw [List.filterMap_eq_nil_iff]
      intro y hy
      exact ho y (List.mem_cons_of_mem _ hy) (by rintro rfl; exact h1 hy)
    · rw [List.filterMap_cons_none (ho x List.mem_cons_self (by rintro rfl; exact h1 ha))]
      exact ih h2 ha fun y hy => ho y (List.mem_cons_of_mem _ hy)

/-- The faces with a tag of the dictionary, in a mesh with one group. -/
theorem boundaryFaceIds_computeFacial (aff0 : A) {g : ElGroup N}
    {dict : List (List Nat × List BTag)} {btags : List BTag} (hb : btags.Nodup) {t : BTag}
    (hs : t ≠ .none ∧ t ≠ .all ∧ t ≠ .reallyAll)
    (hex : ∃ f, InBoundary (computeFacial aff0 [g] dict btags) t f) :
    ∃ M, boundaryFaceIds (computeFacial aff0 [g] dict btags) t = some M ∧ M.Nodup := by
  set bdry := unmatchedFaces (meshFacePairs [g]) 0 g with hbd
  set fs := bdry.filter (hasTag [g] dict 0 t) with hfs
  have hbn : bdry.Nodup := by
    rw [hbd]
    unfold unmatchedFaces
    refine ((nodup_groupFaceIds 0 g).filter _).map_on ?_
    intro x hx y hy e
    have hx0 : x.grp = 0 := by
      have := (List.mem_filter.1 hx).1
      simp only [groupFaceIds, List.mem_flatMap, List.mem_map] at this
      obtain ⟨_, _, _, _, rfl⟩ := this
      rfl
    have hy0 : y.grp = 0 := by
      have := (List.mem_filter.1 hy).1
      simp only [groupFaceIds, List.mem_flatMap, List.mem_map] at this
      obtain ⟨_, _, _, _, rfl⟩ := this
      rfl
    cases x; cases y; simp_all
  obtain ⟨hne, ht⟩ : fs ≠ [] ∧ t ∈ btags := by
    obtain ⟨f, hf⟩ := hex
    have h0 : f.grp = 0 := by
      obtain ⟨l, _, _, h, _⟩ := hf
      have := (List.getElem?_eq_some_iff.1 h).1
      simp [computeFacial, completeFacial, rawFacial] at this
      exact this
    have hg : [g][f.grp]? = some g := by rw [h0]; rfl
    rw [inBoundary_iff_listed hg, (C05_completion _ _).2.2.1 t _ (Or.inr hs), listedUnder_raw_iff] at hf
    rw [h0] at hf
    rcases hf with ⟨h1, ⟨h3, h2⟩ | ⟨h2, _⟩⟩
    · exact ⟨List.ne_nil_of_mem (List.mem_filter.2 ⟨h1, h2⟩), h3⟩
    · exact absurd h2 hs.2.1
  have hbne : bdry.isEmpty = false := by
    cases h : bdry with
    | nil => rw [hfs, h] at hne; simp at hne
    | cons => rfl
  set sel : Fag A → Option (List FaceId) := fun fg =>
    match fg.bdry? with
    | some (t', fs) => if t' = t then some (fs.map fun x => ⟨0, x.el, x.face⟩) else none
    | none => none with hsel
  have hcf : computeFacial aff0 [g] dict btags = [completeGroup 0
      (interiorGroups aff0 (meshFacePairs [g]) 0 ++
        boundaryGroups [g] dict btags (meshFacePairs [g]) 0 g)] := rfl
  have h1 : (completeGroup 0 (interiorGroups aff0 (meshFacePairs [g]) 0 ++
      boundaryGroups [g] dict btags (meshFacePairs [g]) 0 g)).filterMap sel =
      [fs.map fun x => ⟨0, x.el, x.face⟩] := by
    unfold completeGroup
    simp only [List.filterMap_append]
    have e0 : (interiorGroups aff0 (meshFacePairs [g]) 0).filterMap sel = [] := by
      rw [List.filterMap_eq_nil_iff]
      intro fg hfg
      rw [hsel]
      simp only [interiorGroups_bdry? hfg]
    have e1 : (boundaryGroups [g] dict btags (meshFacePairs [g]) 0 g).filterMap sel =
        [fs.map fun x => ⟨0, x.el, x.face⟩] := by
      unfold boundaryGroups
      simp only [← hbd, hbne, Bool.false_eq_true, if_false, List.filterMap_append, List.filterMap_filterMap]
      rw [filterMap_single hb ht (b := fs.map fun x => (⟨0, x.el, x.face⟩ : FaceId))]
      · have : (if bdry.any (fun f => !(btags.any fun t => hasTag [g] dict 0 t f))
            then [Fag.boundary 0 .all bdry] else []).filterMap sel = [] := by
          split
          · simp [hsel, Fag.bdry?, hs.2.1.symm]
          · rfl
        rw [this]; rfl
      · rw [← hfs, if_neg (by simpa using hne)]
        simp [hsel, Fag.bdry?]
      · intro x _ hx
        split
        · rfl
        · simp [hsel, Fag.bdry?, hx]
    rw [e0, e1]
    have e2 : ∀ (c : Prop) [Decidable c] (t' : BTag) (l : List ElFace), t' ≠ t →
        (if c then [] else [Fag.boundary (A := A) 0 t' l]).filterMap sel = [] := by
      intro c _ t' l h
      split
      · rfl
      · simp [hsel, Fag.bdry?, h]
    rw [e2 _ _ _ hs.1.symm, e2 _ _ _ hs.2.1.symm, e2 _ _ _ hs.2.2.symm]
    simp
  refine ⟨fs.map fun x => ⟨0, x.el, x.face⟩, ?_, ?_⟩
  · unfold boundaryFaceIds
    rw [hcf]
    simp only [List.zipIdx_cons, List.zipIdx_nil, List.flatMap_cons, List.flatMap_nil, List.append_nil]
    change (if (List.filterMap sel _).isEmpty = true then none else some (List.filterMap sel _).flatten) = _
    rw [h1]
    simp
  · refine (hbn.filter _).map fun x y h => ?_
    cases x; cases y; simpa using h

end Meshmode
