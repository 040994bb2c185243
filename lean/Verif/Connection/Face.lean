import Verif.Connection.Direct
import Verif.Mesh.Coverage
import Mathlib.Data.List.Perm.Basic

/-!
# Restriction to faces (C27)

`make_face_restriction`, `_get_face_vertices` and `_build_boundary_connection`
(meshmode/discretization/connection/face.py).
-/
namespace Meshmode

variable {N M U A : Type}

/-! ## Model -/

/-- What `make_face_restriction` is asked for: `FACE_RESTR_INTERIOR`, `FACE_RESTR_ALL`
(meshmode/discretization/connection/face.py:57-62) or a boundary tag. -/
inductive FaceSel where
  | interior | all | tag (t : BTag)
  deriving DecidableEq, Repr

/-- `group_boundary_faces`, meshmode/discretization/connection/face.py:251-284. -/
def groupFaces (sel : FaceSel) (nel nfaces : Nat) (fags : List (Fag A)) : List ElFace :=
  match sel with
  | .interior => fags.flatMap fun fag => fag.interiorRows.map fun r => ⟨r.el, r.face⟩
  | .all => (List.range nfaces).flatMap fun iface => (List.range nel).map fun iel => ⟨iel, iface⟩
  | .tag t => fags.flatMap fun fag =>
      match fag.bdry? with
      | some (t', fs) => if t' = t then fs else []
      | none => []

/-- `_get_face_vertices`, meshmode/discretization/connection/face.py:131-163: the volume numbers of the
vertices of the boundary mesh.  For a tag these are all vertices on faces of elements with a tagged face. -/
def faceVertexNrs (sel : FaceSel) (nv : Nat) (groups : List (ElGroup N)) (fags : List (List (Fag A))) :
    List Nat :=
  match sel with
  | .interior => List.range nv
  | .all => List.range nv
  | .tag t => npUnique ((groups.zip fags).flatMap fun p =>
      (p.2.flatMap fun fag =>
        match fag.bdry? with
        | some (t', fs) => if t' = t then fs else []
        | none => []).flatMap fun ef =>
          p.1.fvi.flatMap fun ref => ref.map fun k => (p.1.vertexIndices.getD ef.el []).getD k 0)

/-- `vol_to_bdry_vertices`, meshmode/discretization/connection/face.py:226-231. -/
def volToBdry (nrs : List Nat) (v : Nat) : Int :=
  match nrs.idxOf? v with
  | some k => k
  | none => -1

/-- An element of the boundary mesh: vertex numbers and nodes.
Code: meshmode/discretization/connection/face.py:340-343. -/
structure BdryEl (M : Type) where
  vertices : List Int
  nodes : M
  deriving DecidableEq, Repr

/-- The data of one element of the boundary mesh, meshmode/discretization/connection/face.py:337-351;
`res` is the resampling of the nodes of an element to a face. -/
def bdryEl (res : Nat → N → M) (nrs : List Nat) (g : ElGroup N) (f el : Nat) : Option (BdryEl M) :=
  match g.vertexIndices[el]?, g.nodes[el]?, g.fvi[f]? with
  | some row, some nd, some ref => some ⟨ref.map fun k => volToBdry nrs (row.getD k 0), res f nd⟩
  | _, _, _ => none

/-- `batch_boundary_el_numbers_in_grp`, meshmode/discretization/connection/face.py:291-295. -/
def faceEls (faces : List ElFace) (f : Nat) : List Nat :=
  (faces.filter fun ef => ef.face == f).map ElFace.el

/-- `array[idx] = rows`, where entries not written to (`np.empty`) are `none`.
Code: meshmode/discretization/connection/face.py:297-357. -/
def setRows {α : Type} (arr : List (Option α)) (idx : List Nat) (rows : List (Option α)) :
    List (Option α) :=
  (idx.zip rows).foldl (fun a p => a.set p.1 p.2) arr

/-- One round of the loop over faces, meshmode/discretization/connection/face.py:290-365:
`new_el_numbers`, then the rows of the boundary mesh's group and the batch. -/
def faceBatch (un : U) (igrp base f : Nat) (els : List Nat) : Batch U where
  fromGroup := igrp
  fromEls := els
  toEls := List.range' base els.length
  nodes := un
  face := some f

/-- The loop over faces without `per_face_groups`: `batch_base` increases and one array is shared,
meshmode/discretization/connection/face.py:286-365. -/
def sharedFaces (un : Nat → U) (row : Nat → Nat → Option (BdryEl M)) (igrp : Nat) (faces : List ElFace) :
    List Nat → Nat → List (Option (BdryEl M)) → List (Option (BdryEl M)) × List (Batch U)
  | [], _, arr => (arr, [])
  | f :: fs, base, arr =>
    let els := faceEls faces f
    let b := faceBatch (un f) igrp base f els
    let r := sharedFaces un row igrp faces fs (base + els.length) (setRows arr b.toEls (els.map (row f)))
    (r.1, b :: r.2)

/-- A face restriction: volume numbers of the boundary mesh's vertices, the groups of the boundary mesh, and
the batches of the connection. Code: meshmode/discretization/connection/face.py:170-383. -/
structure FaceRestr (M U : Type) where
  vertices : List Nat
  groups : List (List (Option (BdryEl M)))
  batches : List (List (Batch U))

/-- The boundary groups made from one volume group, with the batches
(`_build_boundary_connection`, meshmode/discretization/connection/face.py:79-124, collects them in the same
way).  Without `per_face_groups` a group is finished at its last face, so a group without faces yields none. -/
def faceGroups (perFace : Bool) (un : Nat → U) (row : Nat → Nat → Option (BdryEl M)) (igrp nfaces : Nat)
    (faces : List ElFace) : List (List (Option (BdryEl M)) × List (Batch U)) :=
  if perFace then
    (List.range nfaces).map fun f =>
      let els := faceEls faces f
      let b := faceBatch (un f) igrp 0 f els
      (setRows (List.replicate els.length none) b.toEls (els.map (row f)), [b])
  else if nfaces = 0 then []
  else [sharedFaces un row igrp faces (List.range nfaces) 0 (List.replicate faces.length none)]

/-- `make_face_restriction`, meshmode/discretization/connection/face.py:170-383; `none` if the tag is not
valid for the mesh.  `un igrp f` are the unit nodes on face `f` in the volume reference element. -/
def makeFaceRestriction (perFace : Bool) (un : Nat → Nat → U) (res : Nat → Nat → N → M) (sel : FaceSel)
    (nv : Nat) (groups : List (ElGroup N)) (fags : List (List (Fag A))) : Option (FaceRestr M U) :=
  let valid := match sel with
    | .tag t => meshHasBoundary fags t
    | _ => true
  if !valid then none
  else
    let nrs := faceVertexNrs sel nv groups fags
    let gs := (groups.zip fags).zipIdx.flatMap fun p =>
      faceGroups perFace (un p.2) (bdryEl (res p.2) nrs p.1.1) p.2 p.1.1.nfaces
        (groupFaces sel p.1.1.nelements p.1.1.nfaces p.1.2)
    some ⟨nrs, gs.map Prod.fst, gs.map Prod.snd⟩

/-! ## Specification -/

/-- The faces requested of one group, by face number.
(Specification or proof vocabulary, no code.) -/
def byFace (nfaces : Nat) (faces : List ElFace) : List ElFace :=
  (List.range nfaces).flatMap fun f => faces.filter fun ef => ef.face == f

/-- Number of the boundary group with the elements for face `f` of volume group `g`.
(Specification or proof vocabulary, no code.) -/
def bdryGroupNr (perFace : Bool) (nfs : List Nat) (g f : Nat) : Nat :=
  if perFace then (nfs.take g).sum + f else g

/-! ## Lemmas -/

theorem filter_partition_perm (nf : Nat) (faces : List ElFace) (h : ∀ ef ∈ faces, ef.face < nf) :
    (byFace nf faces).Perm faces := by
  unfold byFace
  induction nf generalizing faces with
  | zero =>
    have : faces = [] := List.eq_nil_iff_forall_not_mem.2 fun ef hef => absurd (h ef hef) (by omega)
    simp [this]
  | succ n ih =>
    rw [List.range_succ, List.flatMap_append]
    have h1 : ((List.range n).flatMap fun f => faces.filter fun ef => ef.face == f) =
        (List.range n).flatMap fun f =>
          (faces.filter fun ef => decide (ef.face < n)).filter fun ef => ef.face == f := by
      apply List.flatMap_congr
      intro f hf
      rw [List.filter_filter]
      apply List.filter_congr
      intro ef _
      have := List.mem_range.1 hf
      rw [Bool.eq_iff_iff]
      simp only [beq_iff_eq, Bool.and_eq_true, decide_eq_true_eq]
      omega
    rw [h1]
    refine ((ih _ ?_).append_right _).trans ?_
    · intro ef hef
      simpa using (List.mem_filter.1 hef).2
    · simp only [List.flatMap_cons, List.flatMap_nil, List.append_nil]
      have h2 : (faces.filter fun ef => ef.face == n) =
          faces.filter fun ef => !decide (ef.face < n) := by
        apply List.filter_congr
        intro ef hef
        have := h ef hef
        rw [Bool.eq_iff_iff]
        simp only [beq_iff_eq, Bool.not_eq_true', decide_eq_false_iff_not]
        omega
      rw [h2]
      exact List.filter_append_perm (fun ef : ElFace => decide (ef.face < n)) faces

theorem setRows_append {α : Type} (pre : List (Option α)) (rows : List (Option α)) (m : Nat) :
    setRows (pre ++ List.replicate (rows.length + m) none) (List.range' pre.length rows.length) rows =
      pre ++ rows ++ List.replicate m none := by
  unfold setRows
  induction rows generalizing pre with
  | nil => simp
  | cons r rows ih =>
    rw [List.length_cons, List.range'_succ, List.zip_cons_cons, List.foldl_cons]
    have : (pre ++ List.replicate (rows.length + 1 + m) none).set pre.length r =
        (pre ++ [r]) ++ List.replicate (rows.length + m) none := by
      rw [List.set_append_right _ _ (by omega)]
      simp only [Nat.sub_self]
      rw [show rows.length + 1 + m = (rows.length + m) + 1 by omega, List.replicate_succ,
        List.set_cons_zero]
      simp
    rw [this]
    have := ih (pre ++ [r])
    rw [List.length_append] at this
    simp only [List.length_cons, List.length_nil, zero_add] at this
    rw [this]
    simp

/-- Rows of the elements of the faces. (Specification or proof vocabulary, no code.) -/
def rowsOf {M : Type} (row : Nat → Nat → Option (BdryEl M)) (l : List ElFace) : List (Option (BdryEl M)) :=
  l.map fun ef => row ef.face ef.el

theorem faceEls_map {M : Type} (row : Nat → Nat → Option (BdryEl M)) (faces : List ElFace) (f : Nat) :
    (faceEls faces f).map (row f) = rowsOf row (faces.filter fun ef => ef.face == f) := by
  unfold faceEls rowsOf
  rw [List.map_map]
  apply List.map_congr_left
  intro ef hef
  have : ef.face = f := by simpa using (List.mem_filter.1 hef).2
  simp [this]

theorem length_faceEls (faces : List ElFace) (f : Nat) :
    (faceEls faces f).length = (faces.filter fun ef => ef.face == f).length := by
  simp [faceEls]

theorem sharedFaces_spec (un : Nat → U) (row : Nat → Nat → Option (BdryEl M)) (igrp : Nat)
    (faces : List ElFace) (fs : List Nat) (pre : List ElFace) (m : Nat) :
    (sharedFaces un row igrp faces fs pre.length (rowsOf row pre ++ List.replicate
      ((fs.flatMap fun f => faces.filter fun ef => ef.face == f).length + m) none)).1 =
      rowsOf row (pre ++ fs.flatMap fun f => faces.filter fun ef => ef.face == f) ++
        List.replicate m none := by
  induction fs generalizing pre with
  | nil => simp [sharedFaces]
  | cons f fs ih =>
    simp only [sharedFaces, faceBatch]
    have hl : (rowsOf row pre).length = pre.length := by simp [rowsOf]
    have h1 := setRows_append (rowsOf row pre) ((faceEls faces f).map (row f))
      ((fs.flatMap fun f => faces.filter fun ef => ef.face == f).length + m)
    rw [List.length_map, hl] at h1
    rw [List.flatMap_cons, List.length_append, ← length_faceEls, Nat.add_assoc, h1]
    have h2 := ih (pre ++ faces.filter fun ef => ef.face == f)
    rw [List.length_append, ← length_faceEls] at h2
    have h3 : rowsOf row pre ++ (faceEls faces f).map (row f) =
        rowsOf row (pre ++ faces.filter fun ef => ef.face == f) := by
      rw [faceEls_map]
      simp [rowsOf]
    rw [h3, h2, List.append_assoc]

theorem sharedFaces_batches (un : Nat → U) (row : Nat → Nat → Option (BdryEl M)) (igrp : Nat)
    (faces : List ElFace) (fs : List Nat) (base : Nat) (arr : List (Option (BdryEl M))) (k : Nat) :
    (sharedFaces un row igrp faces fs base arr).2[k]? = fs[k]?.map fun f =>
      faceBatch (un f) igrp
        (base + ((fs.take k).flatMap fun f => faces.filter fun ef => ef.face == f).length) f
        (faceEls faces f) := by
  induction fs generalizing base arr k with
  | nil => simp [sharedFaces]
  | cons f fs ih =>
    cases k with
    | zero => simp [sharedFaces]
    | succ k =>
      simp only [sharedFaces, List.getElem?_cons_succ]
      rw [ih]
      congr 1
      funext f'
      rw [List.take_succ_cons, List.flatMap_cons, List.length_append, ← length_faceEls, Nat.add_assoc]

theorem flatMap_getElem?_offset {α β : Type} (F : α → List β) (l : List α) (g : Nat) (a : α)
    (hg : l[g]? = some a) (j : Nat) (hj : j < (F a).length) :
    (l.flatMap F)[((l.take g).map fun a => (F a).length).sum + j]? = (F a)[j]? := by
  induction l generalizing g with
  | nil => simp at hg
  | cons b l ih =>
    cases g with
    | zero =>
      simp only [List.getElem?_cons_zero, Option.some.injEq] at hg
      subst hg
      simp [List.flatMap_cons, List.getElem?_append_left hj]
    | succ g =>
      simp only [List.getElem?_cons_succ] at hg
      rw [List.flatMap_cons, List.take_succ_cons, List.map_cons, List.sum_cons, Nat.add_assoc,
        List.getElem?_append_right (by omega), Nat.add_sub_cancel_left]
      exact ih g hg

theorem zip_zipIdx_getElem? {groups : List (ElGroup N)} {fags : List (List (Fag A))} {g : Nat}
    {grp : ElGroup N} {fg : List (Fag A)} (hg : groups[g]? = some grp) (hf : fags[g]? = some fg) :
    (groups.zip fags).zipIdx[g]? = some ((grp, fg), g) := by
  rw [List.getElem?_zipIdx, List.getElem?_zip_eq_some (z := (grp, fg)) |>.2 ⟨hg, hf⟩]
  simp

theorem length_faceGroups (perFace : Bool) (un : Nat → U) (row : Nat → Nat → Option (BdryEl M))
    (igrp nfaces : Nat) (faces : List ElFace) :
    (faceGroups perFace un row igrp nfaces faces).length =
      if perFace then nfaces else if nfaces = 0 then 0 else 1 := by
  unfold faceGroups
  cases perFace
  · by_cases h : nfaces = 0 <;> simp [h]
  · simp

theorem offset_faceGroups (perFace : Bool) (un : Nat → Nat → U)
    (row : ElGroup N → Nat → Nat → Nat → Option (BdryEl M)) (fc : ElGroup N → List (Fag A) → List ElFace)
    (groups : List (ElGroup N)) (fags : List (List (Fag A))) (hlen : groups.length = fags.length)
    (hnf : perFace = false → ∀ g ∈ groups, 0 < g.nfaces) (g : Nat) (hg : g ≤ groups.length) :
    ((((groups.zip fags).zipIdx.take g).map fun p => (faceGroups perFace (un p.2)
      (row p.1.1 p.2) p.2 p.1.1.nfaces (fc p.1.1 p.1.2)).length).sum =
      if perFace then ((groups.map ElGroup.nfaces).take g).sum else g) := by
  induction g with
  | zero => cases perFace <;> simp
  | succ g ih =>
    have hlt : g < groups.length := by omega
    have hz := zip_zipIdx_getElem? (List.getElem?_eq_getElem hlt)
      (List.getElem?_eq_getElem (hlen ▸ hlt : g < fags.length))
    rw [List.take_add_one, hz, List.map_append, List.sum_append, ih (by omega), List.take_add_one,
      List.getElem?_map, List.getElem?_eq_getElem hlt, List.sum_append]
    simp only [Option.toList_some, List.map_cons, List.map_nil, List.sum_cons, List.sum_nil, Nat.add_zero,
      Option.map_some, length_faceGroups]
    cases perFace with
    | true => simp
    | false =>
      have := hnf rfl groups[g] (List.getElem_mem hlt)
      simp [show groups[g].nfaces ≠ 0 by omega]

/-- Groups and batches of a face restriction, for face `f` of group `g`. -/
theorem makeFaceRestriction_group {perFace : Bool} {un : Nat → Nat → U} {res : Nat → Nat → N → M}
    {sel : FaceSel} {nv : Nat} {groups : List (ElGroup N)} {fags : List (List (Fag A))}
    {r : FaceRestr M U} (h : makeFaceRestriction perFace un res sel nv groups fags = some r)
    (hlen : groups.length = fags.length) (hnf : perFace = false → ∀ g ∈ groups, 0 < g.nfaces)
    {g f : Nat} {grp : ElGroup N} {fg : List (Fag A)} (hg : groups[g]? = some grp) (hfg : fags[g]? = some fg)
    (hf : f < grp.nfaces) :
    ∃ bs, r.batches[bdryGroupNr perFace (groups.map ElGroup.nfaces) g f]? = some bs ∧
      r.groups[bdryGroupNr perFace (groups.map ElGroup.nfaces) g f]? =
        some (if perFace then
          rowsOf (bdryEl (res g) r.vertices grp) ((groupFaces sel grp.nelements grp.nfaces fg).filter
            fun ef => ef.face == f)
        else
          (sharedFaces (un g) (bdryEl (res g) r.vertices grp) g
            (groupFaces sel grp.nelements grp.nfaces fg) (List.range grp.nfaces) 0
            (List.replicate (groupFaces sel grp.nelements grp.nfaces fg).length none)).1) ∧
      bs = if perFace then [faceBatch (un g f) g 0 f
          (faceEls (groupFaces sel grp.nelements grp.nfaces fg) f)]
        else (sharedFaces (un g) (bdryEl (res g) r.vertices grp) g
            (groupFaces sel grp.nelements grp.nfaces fg) (List.range grp.nfaces) 0
            (List.replicate (groupFaces sel grp.nelements grp.nfaces fg).length none)).2 := by
  unfold makeFaceRestriction at h
  simp only at h
  generalize hv : (match sel with | .tag t => meshHasBoundary fags t | _ => true) = v at h
  cases v with
  | false => simp at h
  | true =>
    simp only [Bool.not_true, Bool.false_eq_true, if_false, Option.some.injEq] at h
    subst h
    simp only
    generalize hnrs : faceVertexNrs sel nv groups fags = nrs
    have hlt : g < groups.length := (List.getElem?_eq_some_iff.1 hg).1
    have hoff := offset_faceGroups perFace un (fun gr i => bdryEl (res i) nrs gr)
      (fun gr fl => groupFaces sel gr.nelements gr.nfaces fl) groups fags hlen hnf g (by omega)
    have hz := zip_zipIdx_getElem? hg hfg
    have hfm := flatMap_getElem?_offset (fun p : (ElGroup N × List (Fag A)) × Nat =>
      faceGroups perFace (un p.2) (bdryEl (res p.2) nrs p.1.1) p.2 p.1.1.nfaces
        (groupFaces sel p.1.1.nelements p.1.1.nfaces p.1.2)) (groups.zip fags).zipIdx g _ hz
    rw [hoff] at hfm
    cases perFace with
    | true =>
      have := hfm f (by rw [length_faceGroups]; simpa using hf)
      simp only [if_true, bdryGroupNr] at this ⊢
      have hfg' : (faceGroups true (un g) (bdryEl (res g) nrs grp) g grp.nfaces
          (groupFaces sel grp.nelements grp.nfaces fg))[f]? = some
          (rowsOf (bdryEl (res g) nrs grp) ((groupFaces sel grp.nelements grp.nfaces fg).filter
            fun ef => ef.face == f), [faceBatch (un g f) g 0 f
          (faceEls (groupFaces sel grp.nelements grp.nfaces fg) f)]) := by
        simp only [faceGroups, if_true, List.getElem?_map, List.getElem?_range hf, Option.map_some,
          Option.some.injEq, Prod.mk.injEq, and_true, faceBatch]
        have h1 := setRows_append ([] : List (Option (BdryEl M)))
          ((faceEls (groupFaces sel grp.nelements grp.nfaces fg) f).map (bdryEl (res g) nrs grp f)) 0
        simp only [List.nil_append, List.length_map, List.length_nil, Nat.add_zero, List.replicate_zero,
          List.append_nil] at h1
        rw [h1, faceEls_map]
      rw [hfg'] at this
      refine ⟨_, ?_, ?_, rfl⟩
      · rw [List.getElem?_map, this]; rfl
      · rw [List.getElem?_map, this]; rfl
    | false =>
      have hpos := hnf rfl grp (List.mem_of_getElem? hg)
      have := hfm 0 (by rw [length_faceGroups]; simp [show grp.nfaces ≠ 0 by omega])
      simp only [Bool.false_eq_true, if_false, bdryGroupNr, Nat.add_zero] at this ⊢
      have hfg' : (faceGroups false (un g) (bdryEl (res g) nrs grp) g grp.nfaces
          (groupFaces sel grp.nelements grp.nfaces fg))[0]? = some
          (sharedFaces (un g) (bdryEl (res g) nrs grp) g
            (groupFaces sel grp.nelements grp.nfaces fg) (List.range grp.nfaces) 0
            (List.replicate (groupFaces sel grp.nelements grp.nfaces fg).length none)) := by
        simp [faceGroups, show grp.nfaces ≠ 0 by omega]
      rw [hfg'] at this
      refine ⟨_, ?_, ?_, rfl⟩
      · rw [List.getElem?_map, this]; rfl
      · rw [List.getElem?_map, this]; rfl

/-- The boundary elements for face `f` of a group, in order of their numbers: with `perFace` those of the face,
without those of all faces. (Specification or proof vocabulary, no code.) -/
def origins (perFace : Bool) (nfaces : Nat) (faces : List ElFace) (f : Nat) : List ElFace :=
  if perFace then faces.filter fun ef => ef.face == f else byFace nfaces faces

theorem getElem?_range'_zip {els : List Nat} {base n el : Nat} :
    (n, el) ∈ (List.range' base els.length).zip els ↔ base ≤ n ∧ els[n - base]? = some el := by
  constructor
  · intro h
    obtain ⟨k, hk⟩ := List.mem_iff_getElem?.1 h
    obtain ⟨h1, h2⟩ := (List.getElem?_zip_eq_some (z := (n, el))).1 hk
    have hkl : k < els.length := (List.getElem?_eq_some_iff.1 h2).1
    rw [List.getElem?_range' hkl] at h1
    simp only [Option.some.injEq, Nat.one_mul] at h1
    subst h1
    exact ⟨by omega, by simpa using h2⟩
  · rintro ⟨h1, h2⟩
    have hkl := (List.getElem?_eq_some_iff.1 h2).1
    refine List.mem_iff_getElem?.2 ⟨n - base, (List.getElem?_zip_eq_some (z := (n, el))).2 ⟨?_, h2⟩⟩
    rw [List.getElem?_range' hkl]
    congr 1
    omega

theorem faceEls_getElem? (faces : List ElFace) (f k el : Nat) :
    (faceEls faces f)[k]? = some el ↔ (faces.filter fun ef => ef.face == f)[k]? = some ⟨el, f⟩ := by
  unfold faceEls
  rw [List.getElem?_map]
  constructor
  · intro h
    obtain ⟨ef, h1, h2⟩ := Option.map_eq_some_iff.1 h
    have : ef.face = f := by simpa using (List.mem_filter.1 (List.mem_of_getElem? h1)).2
    rw [h1]
    cases ef
    simp only at h2 this
    rw [h2, this]
  · intro h
    rw [h]
    rfl

/-- `byFace` from the offset of face `f` on. -/
theorem byFace_split (nf f : Nat) (faces : List ElFace) (hf : f < nf) :
    byFace nf faces = ((List.range nf).take f).flatMap (fun f => faces.filter fun ef => ef.face == f) ++
      ((faces.filter fun ef => ef.face == f) ++
        ((List.range nf).drop (f + 1)).flatMap fun f => faces.filter fun ef => ef.face == f) := by
  unfold byFace
  conv_lhs => rw [← List.take_append_drop f (List.range nf)]
  rw [List.flatMap_append, List.drop_eq_getElem_cons (by simpa using hf), List.flatMap_cons]
  simp

theorem byFace_getElem? (nf f n el : Nat) (faces : List ElFace) (hf : f < nf) :
    (byFace nf faces)[n]? = some ⟨el, f⟩ ↔
      ((List.range nf).take f |>.flatMap fun f => faces.filter fun ef => ef.face == f).length ≤ n ∧
      (faces.filter fun ef => ef.face == f)[n -
        ((List.range nf).take f |>.flatMap fun f => faces.filter fun ef => ef.face == f).length]? =
        some ⟨el, f⟩ := by
  rw [byFace_split nf f faces hf]
  generalize hpre : ((List.range nf).take f).flatMap
    (fun f => faces.filter fun ef => ef.face == f) = pre
  generalize hpost : ((List.range nf).drop (f + 1)).flatMap
    (fun f => faces.filter fun ef => ef.face == f) = post
  have hpre' : ∀ ef ∈ pre, ef.face ≠ f := by
    intro ef hef
    rw [← hpre] at hef
    obtain ⟨f', h1, h2⟩ := List.mem_flatMap.1 hef
    have h3 : ef.face = f' := by simpa using (List.mem_filter.1 h2).2
    rw [List.take_range, List.mem_range] at h1
    omega
  have hpost' : ∀ ef ∈ post, ef.face ≠ f := by
    intro ef hef
    rw [← hpost] at hef
    obtain ⟨f', h1, h2⟩ := List.mem_flatMap.1 hef
    have h3 : ef.face = f' := by simpa using (List.mem_filter.1 h2).2
    obtain ⟨k, hk⟩ := List.mem_iff_getElem?.1 h1
    rw [List.getElem?_drop] at hk
    have hlt := (List.getElem?_eq_some_iff.1 hk).1
    rw [List.getElem?_range (by simpa using hlt)] at hk
    simp only [Option.some.injEq] at hk
    omega
  by_cases hn : n < pre.length
  · rw [List.getElem?_append_left hn]
    constructor
    · intro h
      exact absurd rfl (hpre' _ (List.mem_of_getElem? h))
    · rintro ⟨h, _⟩
      omega
  · rw [List.getElem?_append_right (by omega)]
    by_cases hm : n - pre.length < (faces.filter fun ef => ef.face == f).length
    · rw [List.getElem?_append_left hm]
      constructor
      · exact fun h => ⟨by omega, h⟩
      · exact fun h => h.2
    · rw [List.getElem?_append_right (by omega)]
      constructor
      · intro h
        exact absurd rfl (hpost' _ (List.mem_of_getElem? h))
      · rintro ⟨_, h⟩
        exact absurd (List.getElem?_eq_some_iff.1 h).1 (by omega)

/-! ## Properties -/

/-- C27: the elements of the boundary mesh.  In the group for face `f` of volume group `g` there is one
element for each requested pair of element and face (for all faces, or, with `per_face_groups`, for the face
`f`), with the data of that face. -/
theorem C27_elements {perFace : Bool} {un : Nat → Nat → U} {res : Nat → Nat → N → M}
    {sel : FaceSel} {nv : Nat} {groups : List (ElGroup N)} {fags : List (List (Fag A))}
    {r : FaceRestr M U} (h : makeFaceRestriction perFace un res sel nv groups fags = some r)
    (hlen : groups.length = fags.length) (hnf : perFace = false → ∀ g ∈ groups, 0 < g.nfaces)
    {g f : Nat} {grp : ElGroup N} {fg : List (Fag A)} (hg : groups[g]? = some grp) (hfg : fags[g]? = some fg)
    (hf : f < grp.nfaces)
    (hreq : ∀ ef ∈ groupFaces sel grp.nelements grp.nfaces fg, ef.face < grp.nfaces) :
    r.groups[bdryGroupNr perFace (groups.map ElGroup.nfaces) g f]? =
      some ((origins perFace grp.nfaces (groupFaces sel grp.nelements grp.nfaces fg) f).map fun ef =>
        bdryEl (res g) r.vertices grp ef.face ef.el) ∧
    (origins perFace grp.nfaces (groupFaces sel grp.nelements grp.nfaces fg) f).Perm
      ((groupFaces sel grp.nelements grp.nfaces fg).filter fun ef => !perFace || ef.face == f) := by
  obtain ⟨bs, _, h2, _⟩ := makeFaceRestriction_group h hlen hnf hg hfg hf
  rw [h2]
  cases perFace with
  | true => simp [origins, rowsOf]
  | false =>
    have hp := filter_partition_perm grp.nfaces _ hreq
    refine ⟨?_, by simpa [origins] using hp⟩
    simp only [Bool.false_eq_true, if_false, Option.some.injEq, origins]
    have := sharedFaces_spec (un g) (bdryEl (res g) r.vertices grp) g
      (groupFaces sel grp.nelements grp.nfaces fg) (List.range grp.nfaces) [] 0
    have hl : ((List.range grp.nfaces).flatMap fun f =>
        (groupFaces sel grp.nelements grp.nfaces fg).filter fun ef => ef.face == f).length =
        (groupFaces sel grp.nelements grp.nfaces fg).length := hp.length_eq
    rw [hl] at this
    simpa [rowsOf, byFace] using this

/-- C27: the batches.  For face `f` of volume group `g` there is one batch, which reads from that group and
face; it takes element `el` to boundary element `n` exactly when `n` is the element for `(el, f)`. -/
theorem C27_batches {perFace : Bool} {un : Nat → Nat → U} {res : Nat → Nat → N → M}
    {sel : FaceSel} {nv : Nat} {groups : List (ElGroup N)} {fags : List (List (Fag A))}
    {r : FaceRestr M U} (h : makeFaceRestriction perFace un res sel nv groups fags = some r)
    (hlen : groups.length = fags.length) (hnf : perFace = false → ∀ g ∈ groups, 0 < g.nfaces)
    {g f : Nat} {grp : ElGroup N} {fg : List (Fag A)} (hg : groups[g]? = some grp) (hfg : fags[g]? = some fg)
    (hf : f < grp.nfaces) :
    ∃ bs b, r.batches[bdryGroupNr perFace (groups.map ElGroup.nfaces) g f]? = some bs ∧
      bs[if perFace then 0 else f]? = some b ∧ bs.length = (if perFace then 1 else grp.nfaces) ∧
      b.fromGroup = g ∧ b.face = some f ∧ b.nodes = un g f ∧ b.fromEls.length = b.toEls.length ∧
      b.toEls.Nodup ∧
      b.fromEls = ((groupFaces sel grp.nelements grp.nfaces fg).filter fun ef => ef.face == f).map
        ElFace.el ∧
      ∀ n el, (n, el) ∈ b.toEls.zip b.fromEls ↔
        (origins perFace grp.nfaces (groupFaces sel grp.nelements grp.nfaces fg) f)[n]? =
          some ⟨el, f⟩ := by
  obtain ⟨bs, h1, _, h3⟩ := makeFaceRestriction_group h hlen hnf hg hfg hf
  generalize hfs : groupFaces sel grp.nelements grp.nfaces fg = faces at *
  cases perFace with
  | true =>
    simp only [if_true] at h3
    subst h3
    refine ⟨_, faceBatch (un g f) g 0 f (faceEls faces f), h1, by simp, by simp, rfl, rfl, rfl, ?_, ?_,
      rfl, ?_⟩
    · simp [faceBatch]
    · exact List.nodup_range'
    · intro n el
      simp only [faceBatch]
      rw [getElem?_range'_zip, faceEls_getElem?]
      simp [origins]
  | false =>
    simp only [Bool.false_eq_true, if_false] at h3
    have hb := sharedFaces_batches (un g) (bdryEl (res g) r.vertices grp) g faces (List.range grp.nfaces)
      0 (List.replicate faces.length none)
    rw [← h3] at hb
    refine ⟨bs, faceBatch (un g f) g (0 + (((List.range grp.nfaces).take f).flatMap
      fun f => faces.filter fun ef => ef.face == f).length) f (faceEls faces f), h1, ?_, ?_, rfl, rfl, rfl,
      ?_, ?_, rfl, ?_⟩
    · simp only [Bool.false_eq_true, if_false]
      rw [hb f, List.getElem?_range hf]
      rfl
    · simp only [Bool.false_eq_true, if_false]
      have h4 : bs[grp.nfaces]? = none := by
        rw [hb grp.nfaces, List.getElem?_eq_none (by rw [List.length_range])]
        rfl
      have h5 := hb (grp.nfaces - 1)
      rw [List.getElem?_range (by omega)] at h5
      have := (List.getElem?_eq_some_iff.1 h5).1
      have := List.getElem?_eq_none_iff.1 h4
      omega
    · simp [faceBatch]
    · exact List.nodup_range'
    · intro n el
      simp only [faceBatch]
      rw [getElem?_range'_zip, faceEls_getElem?]
      simp only [origins, Bool.false_eq_true, if_false, Nat.zero_add]
      rw [byFace_getElem? _ _ _ _ _ hf]

theorem sharedFaces_toEls (un : Nat → U) (row : Nat → Nat → Option (BdryEl M)) (igrp : Nat)
    (faces : List ElFace) (fs : List Nat) (base : Nat) (arr : List (Option (BdryEl M))) :
    (sharedFaces un row igrp faces fs base arr).2.flatMap Batch.toEls =
      List.range' base (fs.flatMap fun f => faces.filter fun ef => ef.face == f).length := by
  induction fs generalizing base arr with
  | nil => simp [sharedFaces]
  | cons f fs ih =>
    simp only [sharedFaces, List.flatMap_cons, List.length_append, ← length_faceEls, ih, faceBatch]
    rw [← List.range'_append_1]

/-- C27: the batches of a boundary group set its elements in order, each exactly once. -/
theorem C27_targets {perFace : Bool} {un : Nat → Nat → U} {res : Nat → Nat → N → M}
    {sel : FaceSel} {nv : Nat} {groups : List (ElGroup N)} {fags : List (List (Fag A))}
    {r : FaceRestr M U} (h : makeFaceRestriction perFace un res sel nv groups fags = some r)
    (hlen : groups.length = fags.length) (hnf : perFace = false → ∀ g ∈ groups, 0 < g.nfaces)
    {g f : Nat} {grp : ElGroup N} {fg : List (Fag A)} (hg : groups[g]? = some grp) (hfg : fags[g]? = some fg)
    (hf : f < grp.nfaces)
    (hreq : ∀ ef ∈ groupFaces sel grp.nelements grp.nfaces fg, ef.face < grp.nfaces) :
    ∃ bs els, r.batches[bdryGroupNr perFace (groups.map ElGroup.nfaces) g f]? = some bs ∧
      r.groups[bdryGroupNr perFace (groups.map ElGroup.nfaces) g f]? = some els ∧
      bs.flatMap Batch.toEls = List.range els.length := by
  obtain ⟨bs, h1, _, h3⟩ := makeFaceRestriction_group h hlen hnf hg hfg hf
  obtain ⟨h4, h5⟩ := C27_elements h hlen hnf hg hfg hf hreq
  refine ⟨bs, _, h1, h4, ?_⟩
  rw [List.length_map, h3]
  cases perFace with
  | true => simp [faceBatch, length_faceEls, origins, List.range_eq_range']
  | false =>
    simp only [Bool.false_eq_true, if_false]
    rw [sharedFaces_toEls, ← List.range_eq_range']
    simp [origins, byFace]

/-- C27: there is one boundary group for each volume group, or with `per_face_groups` for each face of each
volume group. -/
theorem C27_group_count {perFace : Bool} {un : Nat → Nat → U} {res : Nat → Nat → N → M}
    {sel : FaceSel} {nv : Nat} {groups : List (ElGroup N)} {fags : List (List (Fag A))}
    {r : FaceRestr M U} (h : makeFaceRestriction perFace un res sel nv groups fags = some r)
    (hlen : groups.length = fags.length) (hnf : perFace = false → ∀ g ∈ groups, 0 < g.nfaces) :
    r.groups.length = (if perFace then (groups.map ElGroup.nfaces).sum else groups.length) ∧
    r.batches.length = r.groups.length := by
  unfold makeFaceRestriction at h
  simp only at h
  generalize hv : (match sel with | .tag t => meshHasBoundary fags t | _ => true) = v at h
  cases v with
  | false => simp at h
  | true =>
    simp only [Bool.not_true, Bool.false_eq_true, if_false, Option.some.injEq] at h
    subst h
    simp only [List.length_map, and_true]
    generalize hnrs : faceVertexNrs sel nv groups fags = nrs
    have hoff := offset_faceGroups perFace un (fun gr i => bdryEl (res i) nrs gr)
      (fun gr fl => groupFaces sel gr.nelements gr.nfaces fl) groups fags hlen hnf groups.length le_rfl
    rw [List.take_of_length_le (by simp), List.take_of_length_le (by simp)] at hoff
    rw [List.length_flatMap]
    exact hoff

/-- C27: for all faces of a group, the boundary element of face `iface` of element `iel` has number
`nelements*iface + iel`, and number `iel` in the group of its face with `per_face_groups`. -/
theorem C27_all_numbers (fags : List (Fag A)) (nel nf iel iface : Nat) (hel : iel < nel)
    (hface : iface < nf) :
    (origins false nf (groupFaces .all nel nf fags) iface)[nel * iface + iel]? = some ⟨iel, iface⟩ ∧
    (origins true nf (groupFaces .all nel nf fags) iface)[iel]? = some ⟨iel, iface⟩ ∧
    (∀ ef ∈ groupFaces .all nel nf fags, ef.face < nf) ∧ (groupFaces .all nel nf fags).Nodup := by
  have hfil : ∀ f < nf, ((groupFaces .all nel nf fags).filter fun ef => ef.face == f) =
      (List.range nel).map fun iel => ⟨iel, f⟩ := by
    intro f hf
    simp only [groupFaces]
    rw [List.filter_flatMap]
    have h1 : ((List.range nf).flatMap fun a => List.filter (fun ef : ElFace => ef.face == f)
        ((List.range nel).map fun iel => (⟨iel, a⟩ : ElFace))) = (List.range nf).flatMap fun a =>
        if a = f then (List.range nel).map fun iel => (⟨iel, f⟩ : ElFace) else [] := by
      apply List.flatMap_congr
      intro a _
      split
      · rename_i h
        subst h
        rw [List.filter_eq_self]
        simp
      · rename_i h
        rw [List.filter_eq_nil_iff]
        simp [h]
    rw [h1]
    clear h1 hface
    induction nf with
    | zero => omega
    | succ m ihm =>
      rw [List.range_succ, List.flatMap_append]
      by_cases hfm : f = m
      · subst hfm
        have : ((List.range f).flatMap fun a =>
            if a = f then (List.range nel).map fun iel => (⟨iel, f⟩ : ElFace) else []) = [] := by
          rw [List.flatMap_eq_nil_iff]
          intro a ha
          rw [if_neg (by have := List.mem_range.1 ha; omega)]
        rw [this]
        simp
      · simp only [List.flatMap_cons, List.flatMap_nil, if_neg (Ne.symm hfm), List.append_nil]
        exact ihm (by omega)
  refine ⟨?_, ?_, ?_, ?_⟩
  · simp only [origins, Bool.false_eq_true, if_false]
    rw [byFace_getElem? _ _ _ _ _ hface]
    have hlen : (((List.range nf).take iface).flatMap fun f =>
        (groupFaces .all nel nf fags).filter fun ef => ef.face == f).length = nel * iface := by
      rw [List.length_flatMap]
      have : ((List.range nf).take iface).map (fun f =>
          ((groupFaces .all nel nf fags).filter fun ef => ef.face == f).length) =
          List.replicate iface nel := by
        rw [List.eq_replicate_iff]
        refine ⟨by simp; omega, ?_⟩
        intro n hn
        obtain ⟨f, hf, rfl⟩ := List.mem_map.1 hn
        rw [List.take_range, List.mem_range] at hf
        rw [hfil f (by omega)]
        simp
      rw [this, List.sum_replicate_nat, Nat.mul_comm]
    rw [hlen]
    refine ⟨by omega, ?_⟩
    rw [Nat.add_sub_cancel_left, hfil iface hface]
    simp [hel]
  · simp only [origins, if_true]
    rw [hfil iface hface]
    simp [hel]
  · intro ef hef
    simp only [groupFaces, List.mem_flatMap, List.mem_range, List.mem_map] at hef
    obtain ⟨f, hf, e, _, rfl⟩ := hef
    exact hf
  · simp only [groupFaces]
    rw [List.nodup_flatMap]
    constructor
    · intro f _
      exact List.nodup_range.map fun a b h => by simpa using h
    · refine List.nodup_range.imp ?_
      intro a b hab x hx hx'
      obtain ⟨_, _, rfl⟩ := List.mem_map.1 hx
      obtain ⟨_, _, h⟩ := List.mem_map.1 hx'
      simp only [ElFace.mk.injEq] at h
      exact hab h.2.symm

/-- C27: which pairs are requested. -/
theorem C27_requested (sel : FaceSel) (nel nf : Nat) (fags : List (Fag A)) (el face : Nat) :
    ⟨el, face⟩ ∈ groupFaces sel nel nf fags ↔
      match sel with
      | .interior => ∃ fag ∈ fags, ∃ row ∈ fag.interiorRows, row.el = el ∧ row.face = face
      | .all => el < nel ∧ face < nf
      | .tag t => ∃ fag ∈ fags, ∃ fs, fag.bdry? = some (t, fs) ∧ ⟨el, face⟩ ∈ fs := by
  cases sel with
  | interior => simp [groupFaces]
  | all => simp [groupFaces, and_comm]
  | tag t =>
    simp only [groupFaces, List.mem_flatMap]
    constructor
    · rintro ⟨fag, hfag, h⟩
      refine ⟨fag, hfag, ?_⟩
      split at h
      · rename_i t' fs hb
        split at h
        · rename_i ht
          subst ht
          exact ⟨fs, hb, h⟩
        · simp at h
      · simp at h
    · rintro ⟨fag, hfag, fs, hb, h⟩
      refine ⟨fag, hfag, ?_⟩
      rw [hb]
      simpa using h

/-- C27: restriction is defined unless a tag is given that no boundary group carries. -/
theorem C27_defined (perFace : Bool) (un : Nat → Nat → U) (res : Nat → Nat → N → M) (sel : FaceSel)
    (nv : Nat) (groups : List (ElGroup N)) (fags : List (List (Fag A))) :
    makeFaceRestriction perFace un res sel nv groups fags = none ↔
      ∃ t, sel = .tag t ∧ ¬ TagExists fags t := by
  unfold makeFaceRestriction
  cases sel with
  | interior => simp
  | all => simp
  | tag t =>
    simp only [FaceSel.tag.injEq, exists_eq_left']
    rw [← meshHasBoundary_iff]
    cases meshHasBoundary fags t <;> simp

/-- The vertices of a boundary element are those of its face: the `k`-th vertex number leads to the `k`-th
vertex of the face in the volume mesh. -/
theorem C27_vertices {perFace : Bool} {un : Nat → Nat → U} {res : Nat → Nat → N → M}
    {sel : FaceSel} {nv : Nat} {groups : List (ElGroup N)} {fags : List (List (Fag A))}
    {r : FaceRestr M U} (h : makeFaceRestriction perFace un res sel nv groups fags = some r)
    {g : Nat} {grp : ElGroup N} {fg : List (Fag A)} (hg : groups[g]? = some grp) (hfg : fags[g]? = some fg)
    (hwf : grp.WF) (hv : ∀ row ∈ grp.vertexIndices, ∀ v ∈ row, v < nv) {el f : Nat}
    (hef : ⟨el, f⟩ ∈ groupFaces sel grp.nelements grp.nfaces fg) (hel : el < grp.nelements)
    (hf : f < grp.nfaces) :
    ∃ b row ref nd, grp.vertexIndices[el]? = some row ∧ grp.fvi[f]? = some ref ∧ grp.nodes[el]? = some nd ∧
      bdryEl (res g) r.vertices grp f el = some b ∧ b.nodes = res g f nd ∧
      b.vertices.length = ref.length ∧
      ∀ (k : Nat) (j : Nat), ref[k]? = some j → ∃ (n v : Nat), b.vertices[k]? = some (n : Int) ∧
        row[j]? = some v ∧ r.vertices[n]? = some v := by
  have hel' : el < grp.vertexIndices.length := by rw [hwf.1]; exact hel
  have hnd : grp.nodes[el]? = some grp.nodes[el] := List.getElem?_eq_getElem hel
  have hrow : grp.vertexIndices[el]? = some grp.vertexIndices[el] := List.getElem?_eq_getElem hel'
  have href : grp.fvi[f]? = some grp.fvi[f] := List.getElem?_eq_getElem hf
  refine ⟨_, _, _, _, hrow, href, hnd, by simp only [bdryEl, hrow, hnd, href]; rfl, rfl, by simp, ?_⟩
  intro k j hk
  have hjlt : j < grp.vertexIndices[el].length :=
    hwf.2 _ (List.getElem_mem hel') _ (List.getElem_mem hf) j (List.mem_of_getElem? hk)
  have hmem : grp.vertexIndices[el][j] ∈ r.vertices := by
    unfold makeFaceRestriction at h
    simp only [Option.ite_none_left_eq_some, Option.some.injEq] at h
    · obtain ⟨_, rfl⟩ := h
      have hb := hv _ (List.getElem_mem hel') _ (List.getElem_mem hjlt)
      cases sel with
      | interior => simpa [faceVertexNrs] using hb
      | all => simpa [faceVertexNrs] using hb
      | tag t =>
        simp only [faceVertexNrs]
        rw [mem_npUnique]
        refine List.mem_flatMap.2 ⟨(grp, fg), List.mem_iff_getElem?.2 ⟨g,
          (List.getElem?_zip_eq_some (z := (grp, fg))).2 ⟨hg, hfg⟩⟩, ?_⟩
        refine List.mem_flatMap.2 ⟨⟨el, f⟩, hef, ?_⟩
        refine List.mem_flatMap.2 ⟨grp.fvi[f], List.getElem_mem hf, ?_⟩
        refine List.mem_map.2 ⟨j, List.mem_of_getElem? hk, ?_⟩
        simp only [List.getD_eq_getElem?_getD, hrow, Option.getD_some, List.getElem?_eq_getElem hjlt]
  refine ⟨r.vertices.idxOf grp.vertexIndices[el][j], grp.vertexIndices[el][j], ?_,
    List.getElem?_eq_getElem hjlt, ?_⟩
  · simp only [List.getElem?_map, hk, Option.map_some, volToBdry]
    rw [List.getD_eq_getElem?_getD, List.getElem?_eq_getElem hjlt]
    simp only [Option.getD_some]
    have hsome : r.vertices.idxOf? grp.vertexIndices[el][j] =
        some (r.vertices.idxOf grp.vertexIndices[el][j]) := by
      rw [List.idxOf?_eq_some_iff]
      refine ⟨List.idxOf_lt_length_of_mem hmem, by simp, ?_⟩
      intro i hi
      have := List.not_of_lt_findIdx (p := fun x => x == grp.vertexIndices[el][j]) hi
      simpa using this
    rw [hsome]
  · rw [List.getElem?_eq_getElem (List.idxOf_lt_length_of_mem hmem)]
    simp

/-- Two triangles sharing an edge, `[0, 1, 2]` and `[2, 1, 3]`. -/
def exFaceMesh : List (ElGroup Nat) :=
  [⟨0, [[0, 1], [1, 2], [0, 2]], [[0, 1, 2], [2, 1, 3]], [10, 11]⟩]

/-- Their facial adjacency. -/
def exFaceFags : List (List (Fag Unit)) :=
  [[.interior 0 0 [⟨0, 1, 1, 0⟩, ⟨1, 0, 0, 1⟩] (),
    .boundary 0 .all [⟨0, 0⟩, ⟨0, 2⟩, ⟨1, 1⟩, ⟨1, 2⟩]]]

example : ((makeFaceRestriction false (fun _ _ => ()) (fun _ f n => (f, n)) (.tag .all) 4 exFaceMesh
    exFaceFags).map fun r => r.groups) =
    some [[some ⟨[0, 1], (0, 10)⟩, some ⟨[1, 3], (1, 11)⟩, some ⟨[0, 2], (2, 10)⟩,
      some ⟨[2, 3], (2, 11)⟩]] := by decide +kernel

example : ((makeFaceRestriction true (fun _ _ => ()) (fun _ f n => (f, n)) .interior 4 exFaceMesh
    exFaceFags).map fun r => r.groups) =
    some [[some ⟨[2, 1], (0, 11)⟩], [some ⟨[1, 2], (1, 10)⟩], []] := by decide +kernel

example : exFaceMesh.length = exFaceFags.length ∧ (∀ g ∈ exFaceMesh, 0 < g.nfaces) ∧
    ∀ ef ∈ groupFaces (.tag .all) 2 3 (exFaceFags.getD 0 []), ef.face < 3 := by decide

end Meshmode
