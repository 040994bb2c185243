import Verif.Connection.Conservation

/-!
# The boundary of a mesh of tetrahedra (C114)

The boundary mesh made by `make_face_restriction` (meshmode/discretization/connection/face.py:134-401) of a mesh of
tetrahedra which `find_volume_mesh_element_orientations` (meshmode/mesh/processing.py:576-678) finds positively oriented.
All definitions are those of the modules imported.
-/
namespace Meshmode

variable {N M U A K : Type}

section
variable {perFace : Bool} {groups : List (ElGroup N)} {un : Nat → Nat → U} {res : Nat → Nat → N → M} {nv : Nat}
  {ref : Nat → Nat × List (List Nat)} {r : FaceRestr M U} {aff0 : A} {dict : List (List Nat × List BTag)}
  {btags : List BTag} [Field K]

/-- The determinant of three points. (Specification or proof vocabulary, no code.) -/
def tripleDet (p q s : Fin 3 → K) : K :=
  p 0 * (q 1 * s 2 - q 2 * s 1) - p 1 * (q 0 * s 2 - q 2 * s 0) + p 2 * (q 0 * s 1 - q 1 * s 0)

/-- Six times the signed volume of a tetrahedron: its sign tells the side of the plane through `a`, `b`, `c` on which `p`
lies. (Specification or proof vocabulary, no code.) -/
def planeSide (pts : List (Fin 3 → K)) (a b c p : Nat) : K :=
  tripleDet (pts.getD b 0 - pts.getD a 0) (pts.getD c 0 - pts.getD a 0) (pts.getD p 0 - pts.getD a 0)

/-- Vertex `p` is the corner of the tetrahedron of face `F` that is not on `F`.
(Specification or proof vocabulary, no code.) -/
def IsTop (groups : List (ElGroup N)) (F : FaceId) (p : Nat) : Prop :=
  ∃ g row, groups[F.grp]? = some g ∧ g.vertexIndices[F.el]? = some row ∧ row[3 - F.face]? = some p

/-- Of a triangle, the determinant of its corners. (Specification or proof vocabulary, no code.) -/
def triangleDet (pts : List (Fin 3 → K)) : List Nat → K
  | [a, b, c] => tripleDet (pts.getD a 0) (pts.getD b 0) (pts.getD c 0)
  | _ => 0

/-- Six times the flux of the vector field `x ↦ J x + u` through a triangle: the field at the centroid times the area
times the normal. (Specification or proof vocabulary, no code.) -/
def triangleFlux (J : Fin 3 → Fin 3 → K) (u : Fin 3 → K) (pts : List (Fin 3 → K)) : List Nat → K
  | [a, b, c] => tripleDet
      (fun i => J i 0 * (pts.getD a 0 0 + pts.getD b 0 0 + pts.getD c 0 0) +
        J i 1 * (pts.getD a 0 1 + pts.getD b 0 1 + pts.getD c 0 1) +
        J i 2 * (pts.getD a 0 2 + pts.getD b 0 2 + pts.getD c 0 2) + 3 * u i)
      (pts.getD b 0 - pts.getD a 0) (pts.getD c 0 - pts.getD a 0)
  | _ => 0

/-- Twice the flux of the vector field `x ↦ J x + u` through a directed edge, to the right of it: the field at the midpoint
times the length times the normal. (Specification or proof vocabulary, no code.) -/
def edgeFlux (J : Fin 2 → Fin 2 → K) (u : Fin 2 → K) (pts : List (Fin 2 → K)) : List Nat → K
  | [a, b] =>
    (J 0 0 * (pts.getD a 0 0 + pts.getD b 0 0) + J 0 1 * (pts.getD a 0 1 + pts.getD b 0 1) + 2 * u 0) *
        (pts.getD b 0 1 - pts.getD a 0 1) -
      (J 1 0 * (pts.getD a 0 0 + pts.getD b 0 0) + J 1 1 * (pts.getD a 0 1 + pts.getD b 0 1) + 2 * u 1) *
        (pts.getD b 0 0 - pts.getD a 0 0)
  | _ => 0

theorem elemOrient_tetrahedron {pts : List (Fin 3 → K)} {w x y z : Nat} {o : K}
    (h : elemOrient pts (unitVerts (.simplex 3)) [w, x, y, z] = some o) : o = planeSide pts w x y z := by
  have e0 : findVertex (unitVerts (.simplex 3)) (List.replicate 3 (-1)) = 0 := by decide
  have e1 : findVertex (unitVerts (.simplex 3)) ((List.replicate 3 (-1)).set 0 1) = 1 := by decide
  have e2 : findVertex (unitVerts (.simplex 3)) ((List.replicate 3 (-1)).set 1 1) = 2 := by decide
  have e3 : findVertex (unitVerts (.simplex 3)) ((List.replicate 3 (-1)).set 2 1) = 3 := by decide
  unfold elemOrient at h
  rw [show List.range 3 = [0, 1, 2] from rfl] at h
  simp only [List.mapM_cons, List.mapM_nil, e0, e1, e2, e3, rowPoint, List.getElem?_cons_zero, List.getElem?_cons_succ,
    Option.bind_some, Option.bind_eq_bind, Option.pure_def, Option.bind_eq_some_iff, Option.map_eq_some_iff] at h
  obtain ⟨pw, hw, ps, ⟨px, hx, qs, ⟨py, hy, ss, ⟨pz, hz, hss⟩, hqs⟩, hps⟩, rfl⟩ := h
  obtain rfl := Option.some.inj hss
  obtain rfl := Option.some.inj hqs
  obtain rfl := Option.some.inj hps
  have hs : orientSign 3 = (1 : K) := by simp only [orientSign]; norm_num
  rw [hs, one_mul, Matrix.det_fin_three]
  simp only [planeSide, tripleDet, List.getD_eq_getElem?_getD, hw, hx, hy, hz, Matrix.of_apply, Option.getD_some]
  simp
  ring

theorem planeSide_perm (pts : List (Fin 3 → K)) (a b c p : Nat) :
    planeSide pts b c a p = planeSide pts a b c p ∧ planeSide pts c a b p = planeSide pts a b c p ∧
    planeSide pts b a c p = -planeSide pts a b c p ∧ planeSide pts a a c p = 0 ∧ planeSide pts a b b p = 0 ∧
    planeSide pts a b a p = 0 := by
  simp only [planeSide, tripleDet, Pi.sub_apply]
  refine ⟨?_, ?_, ?_, ?_, ?_, ?_⟩ <;> ring

omit [Field K] in
theorem three_of_three {a b c a' b' c' : Nat} (d1 : a ≠ b) (d2 : b ≠ c) (d3 : a ≠ c)
    (q1 : a' = a ∨ a' = b ∨ a' = c) (q2 : b' = a ∨ b' = b ∨ b' = c) (q3 : c' = a ∨ c' = b ∨ c' = c)
    (q4 : a = a' ∨ a = b' ∨ a = c') (q5 : b = a' ∨ b = b' ∨ b = c') (q6 : c = a' ∨ c = b' ∨ c = c') :
    (a' = a ∧ b' = b ∧ c' = c) ∨ (a' = b ∧ b' = c ∧ c' = a) ∨ (a' = c ∧ b' = a ∧ c' = b) ∨
      (a' = b ∧ b' = a ∧ c' = c) ∨ (a' = a ∧ b' = c ∧ c' = b) ∨ (a' = c ∧ b' = b ∧ c' = a) := by
  rcases q1 with rfl | rfl | rfl <;> rcases q2 with rfl | rfl | rfl <;> rcases q3 with rfl | rfl | rfl <;>
    simp_all [eq_comm]

variable [LinearOrder K] [IsStrictOrderedRing K]

/-- Each face of a positively oriented tetrahedron has the fourth corner on its negative side. -/
theorem tet_face (hwf : ∀ g ∈ groups, g.WF) {pts : List (Fin 3 → K)}
    (htab : ∀ g ∈ groups, g.fvi = [[0, 2, 1], [0, 1, 3], [0, 3, 2], [1, 2, 3]])
    (hpos : ∀ g ∈ groups, ∀ row ∈ g.vertexIndices, row.length = 4 ∧
      ∃ o, elemOrient pts (unitVerts (.simplex 3)) row = some o ∧ 0 < o) {F : FaceId} {vs : List Nat}
    (hF : IsFace groups F) (hvs : faceVerts groups F = some vs) :
    ∃ a b c p grp row, vs = [a, b, c] ∧ groups[F.grp]? = some grp ∧ grp.vertexIndices[F.el]? = some row ∧
      row.Perm [a, b, c, p] ∧ row[3 - F.face]? = some p ∧ planeSide pts a b c p < 0 := by
  obtain ⟨g, el, f⟩ := F
  obtain ⟨grp, hg, hf, hel⟩ := hF
  simp only at hg hf hel
  have hm := List.mem_of_getElem? hg
  have hel' : el < grp.vertexIndices.length := by rw [(hwf _ hm).1]; exact hel
  have hrow := List.getElem?_eq_getElem hel'
  obtain ⟨hl, o, ho, hp⟩ := hpos grp hm _ (List.getElem_mem hel')
  generalize grp.vertexIndices[el] = row at hrow hl ho
  obtain ⟨w, x, y, z, rfl⟩ : ∃ w x y z, row = [w, x, y, z] := by
    match row, hl with
    | [w, x, y, z], _ => exact ⟨w, x, y, z, rfl⟩
  rw [elemOrient_tetrahedron ho] at hp
  rw [faceVerts_table hg hrow, htab _ hm] at hvs
  have hf4 : f < 4 := by
    have : grp.nfaces = 4 := by rw [ElGroup.nfaces, htab _ hm]; rfl
    omega
  have hperm : ∀ l : List Nat, [0, 1, 2, 3].Perm l →
      [w, x, y, z].Perm (l.map fun i => [w, x, y, z].getD i 0) := fun l hl => hl.map fun i => [w, x, y, z].getD i 0
  interval_cases f
  · refine ⟨w, y, x, z, grp, _, by simpa [tableVerts] using hvs.symm, hg, hrow, hperm [0, 2, 1, 3] (by decide), rfl, ?_⟩
    have : planeSide pts w y x z = -planeSide pts w x y z := by simp only [planeSide, tripleDet, Pi.sub_apply]; ring
    rw [this]; linarith
  · refine ⟨w, x, z, y, grp, _, by simpa [tableVerts] using hvs.symm, hg, hrow, hperm [0, 1, 3, 2] (by decide), rfl, ?_⟩
    have : planeSide pts w x z y = -planeSide pts w x y z := by simp only [planeSide, tripleDet, Pi.sub_apply]; ring
    rw [this]; linarith
  · refine ⟨w, z, y, x, grp, _, by simpa [tableVerts] using hvs.symm, hg, hrow, hperm [0, 3, 2, 1] (by decide), rfl, ?_⟩
    have : planeSide pts w z y x = -planeSide pts w x y z := by simp only [planeSide, tripleDet, Pi.sub_apply]; ring
    rw [this]; linarith
  · refine ⟨x, y, z, w, grp, _, by simpa [tableVerts] using hvs.symm, hg, hrow, hperm [1, 2, 3, 0] (by decide), rfl, ?_⟩
    have : planeSide pts x y z w = -planeSide pts w x y z := by simp only [planeSide, tripleDet, Pi.sub_apply]; ring
    rw [this]; linarith

/-- C114: in a mesh of positively oriented tetrahedra, neighbors that lie on different sides of their common face list its
vertices in opposite senses. -/
theorem C114_opposite (hwf : ∀ g ∈ groups, g.WF) {pts : List (Fin 3 → K)}
    (htab : ∀ g ∈ groups, g.fvi = [[0, 2, 1], [0, 1, 3], [0, 3, 2], [1, 2, 3]])
    (hpos : ∀ g ∈ groups, ∀ row ∈ g.vertexIndices, row.length = 4 ∧
      ∃ o, elemOrient pts (unitVerts (.simplex 3)) row = some o ∧ 0 < o)
    (hsep : ∀ F F' a b c p p', IsNeighbor (computeFacial aff0 groups dict btags) F F' →
      faceVerts groups F = some [a, b, c] → IsTop groups F p → IsTop groups F' p' →
      planeSide pts a b c p * planeSide pts a b c p' < 0)
    (F F' : FaceId) (vs vs' : List Nat) (hn : IsNeighbor (computeFacial aff0 groups dict btags) F F')
    (h1 : faceVerts groups F = some vs) (h2 : faceVerts groups F' = some vs') :
    ∃ a b c, vs = [a, b, c] ∧ (vs' = [b, a, c] ∨ vs' = [a, c, b] ∨ vs' = [c, b, a]) := by
  have key := fun F vs h1 h2 => tet_face hwf htab hpos (F := F) (vs := vs) h1 h2
  obtain ⟨_, _, k1, k2, us, us', k3, k4, k5⟩ := C02_facial_adjacency_symmetric hwf aff0 dict btags F F' hn
  rw [h1] at k3; obtain rfl := Option.some.inj k3
  rw [h2] at k4; obtain rfl := Option.some.inj k4
  obtain ⟨a, b, c, p, _, _, rfl, n1, n2, _, n3, m2⟩ := key F vs k1 h1
  have m1 : IsTop groups F p := ⟨_, _, n1, n2, n3⟩
  obtain ⟨a', b', c', p', _, _, rfl, n1', n2', _, n3', m4⟩ := key F' vs' k2 h2
  have m3 : IsTop groups F' p' := ⟨_, _, n1', n2', n3'⟩
  have hs := hsep F F' a b c p p' hn h1 m1 m3
  obtain ⟨r1, r2, r3, r4, r5, r6⟩ := planeSide_perm pts a b c p
  have d1 : a ≠ b := by rintro rfl; rw [r4] at m2; exact lt_irrefl _ m2
  have d2 : b ≠ c := by rintro rfl; rw [r5] at m2; exact lt_irrefl _ m2
  have d3 : a ≠ c := by rintro rfl; rw [r6] at m2; exact lt_irrefl _ m2
  have q1 : a' ∈ [a, b, c] := k5.mem_iff.2 (by simp)
  have q2 : b' ∈ [a, b, c] := k5.mem_iff.2 (by simp)
  have q3 : c' ∈ [a, b, c] := k5.mem_iff.2 (by simp)
  have q4 : a ∈ [a', b', c'] := k5.mem_iff.1 (by simp)
  have q5 : b ∈ [a', b', c'] := k5.mem_iff.1 (by simp)
  have q6 : c ∈ [a', b', c'] := k5.mem_iff.1 (by simp)
  simp only [List.mem_cons, List.not_mem_nil, or_false] at q1 q2 q3 q4 q5 q6
  have hsix := three_of_three d1 d2 d3 q1 q2 q3 q4 q5 q6
  have hno : ¬ planeSide pts a b c p' < 0 := fun hlt => absurd hs (not_lt.2 (mul_pos_of_neg_of_neg m2 hlt).le)
  obtain ⟨t1, t2, _⟩ := planeSide_perm pts a b c p'
  rcases hsix with ⟨rfl, rfl, rfl⟩ | ⟨rfl, rfl, rfl⟩ | ⟨rfl, rfl, rfl⟩ | ⟨rfl, rfl, rfl⟩ | ⟨rfl, rfl, rfl⟩ | ⟨rfl, rfl, rfl⟩
  · exact absurd m4 hno
  · rw [t1] at m4; exact absurd m4 hno
  · rw [t2] at m4; exact absurd m4 hno
  · exact ⟨_, _, _, rfl, .inl rfl⟩
  · exact ⟨_, _, _, rfl, .inr (.inl rfl)⟩
  · exact ⟨_, _, _, rfl, .inr (.inr rfl)⟩

/-- C114: the boundary of a mesh of positively oriented tetrahedra is a closed surface, consistently oriented: each edge is
run through as often in one direction as in the other. -/
theorem C114_tetrahedra (H : BoundaryMade perFace un res nv groups aff0 dict btags r) {pts : List (Fin 3 → K)}
    (htab : ∀ g ∈ groups, g.fvi = [[0, 2, 1], [0, 1, 3], [0, 3, 2], [1, 2, 3]])
    (hpos : ∀ g ∈ groups, ∀ row ∈ g.vertexIndices, row.length = 4 ∧
      ∃ o, elemOrient pts (unitVerts (.simplex 3)) row = some o ∧ 0 < o)
    (hsep : ∀ F F' a b c p p', IsNeighbor (computeFacial aff0 groups dict btags) F F' →
      faceVerts groups F = some [a, b, c] → IsTop groups F p → IsTop groups F' p' →
      planeSide pts a b c p * planeSide pts a b c p' < 0) (a b : Nat) :
    (((bdryMeshGroups ref r).flatMap ElGroup.vertexIndices).flatMap dirEdges).count (a, b) =
      (((bdryMeshGroups ref r).flatMap ElGroup.vertexIndices).flatMap dirEdges).count (b, a) := by
  refine C114_surface H ?_ ?_ a b
  · intro g hg
    rw [htab g hg]
    decide
  · intro F F' vs vs' hn h1 h2
    obtain ⟨a, b, c, rfl, rfl | rfl | rfl⟩ := C114_opposite H.wf htab hpos hsep F F' vs vs' hn h1 h2
    · exact List.Perm.cons _ (List.Perm.swap _ _ _)
    · exact (List.reverse_perm [(b, a), (c, b), (a, c)])
    · exact List.Perm.swap _ _ _

/-- C114: the volume of a mesh of positively oriented tetrahedra is given by its boundary mesh alone: the sum over the
elements of the determinants that `find_volume_mesh_element_orientations` takes the signs of (six times their volumes) is
the sum over the triangles of the boundary mesh of the determinants of their corners. -/
theorem C114_volume (H : BoundaryMade perFace un res nv groups aff0 dict btags r) {pts : List (Fin 3 → K)}
    (htab : ∀ g ∈ groups, g.fvi = [[0, 2, 1], [0, 1, 3], [0, 3, 2], [1, 2, 3]])
    (hpos : ∀ g ∈ groups, ∀ row ∈ g.vertexIndices, row.length = 4 ∧
      ∃ o, elemOrient pts (unitVerts (.simplex 3)) row = some o ∧ 0 < o)
    (hsep : ∀ F F' a b c p p', IsNeighbor (computeFacial aff0 groups dict btags) F F' →
      faceVerts groups F = some [a, b, c] → IsTop groups F p → IsTop groups F' p' →
      planeSide pts a b c p * planeSide pts a b c p' < 0) :
    (rowSum groups fun row => (elemOrient pts (unitVerts (.simplex 3)) row).getD 0) =
      rowSum (bdryMeshGroups ref r) fun row => triangleDet pts (row.map fun k => r.vertices.getD k 0) := by
  have h1 := C114_volume_numbers (ref := ref) H (triangleDet pts) ?_
  · rw [faceSum_rows (ψ := fun row => (elemOrient pts (unitVerts (.simplex 3)) row).getD 0) ?_ H.wf] at h1
    · exact h1
    · intro g grp el row hg hrow hel
      have hm := List.mem_of_getElem? hg
      obtain ⟨row', e1, e2⟩ := elementSum_eq (groups := groups) (H.wf _ hm) hg hel id (triangleDet pts)
      rw [hrow] at e1
      obtain rfl := Option.some.inj e1
      simp only [List.map_id] at e2
      rw [e2, htab _ hm]
      obtain ⟨hl, o, ho, -⟩ := hpos grp hm row (List.mem_of_getElem? hrow)
      obtain ⟨w, x, y, z, rfl⟩ : ∃ w x y z, row = [w, x, y, z] := by
        match row, hl with
        | [w, x, y, z], _ => exact ⟨w, x, y, z, rfl⟩
      rw [ho, Option.getD_some, elemOrient_tetrahedron ho]
      simp only [List.map_cons, List.map_nil, List.sum_cons, List.sum_nil, List.getD_cons_zero, List.getD_cons_succ,
        triangleDet, planeSide, tripleDet, id, Pi.sub_apply]
      ring
  · intro F F' vs vs' hn h1 h2
    obtain ⟨a, b, c, rfl, rfl | rfl | rfl⟩ := C114_opposite H.wf htab hpos hsep F F' vs vs' hn h1 h2 <;>
    · simp only [triangleDet, tripleDet]
      ring

/-- C114: the divergence theorem for affine vector fields `x ↦ J x + u`: their flux through the boundary mesh is their
divergence times the volume of the mesh. -/
theorem C114_divergence (H : BoundaryMade perFace un res nv groups aff0 dict btags r) {pts : List (Fin 3 → K)}
    (htab : ∀ g ∈ groups, g.fvi = [[0, 2, 1], [0, 1, 3], [0, 3, 2], [1, 2, 3]])
    (hpos : ∀ g ∈ groups, ∀ row ∈ g.vertexIndices, row.length = 4 ∧
      ∃ o, elemOrient pts (unitVerts (.simplex 3)) row = some o ∧ 0 < o)
    (hsep : ∀ F F' a b c p p', IsNeighbor (computeFacial aff0 groups dict btags) F F' →
      faceVerts groups F = some [a, b, c] → IsTop groups F p → IsTop groups F' p' →
      planeSide pts a b c p * planeSide pts a b c p' < 0) (J : Fin 3 → Fin 3 → K) (u : Fin 3 → K) :
    (rowSum groups fun row => (J 0 0 + J 1 1 + J 2 2) * (elemOrient pts (unitVerts (.simplex 3)) row).getD 0) =
      rowSum (bdryMeshGroups ref r) fun row => triangleFlux J u pts (row.map fun k => r.vertices.getD k 0) := by
  have h1 := C114_volume_numbers (ref := ref) H (triangleFlux J u pts) ?_
  · rw [faceSum_rows (ψ := fun row =>
      (J 0 0 + J 1 1 + J 2 2) * (elemOrient pts (unitVerts (.simplex 3)) row).getD 0) ?_ H.wf] at h1
    · exact h1
    · intro g grp el row hg hrow hel
      have hm := List.mem_of_getElem? hg
      obtain ⟨row', e1, e2⟩ := elementSum_eq (groups := groups) (H.wf _ hm) hg hel id (triangleFlux J u pts)
      rw [hrow] at e1
      obtain rfl := Option.some.inj e1
      simp only [List.map_id] at e2
      rw [e2, htab _ hm]
      obtain ⟨hl, o, ho, -⟩ := hpos grp hm row (List.mem_of_getElem? hrow)
      obtain ⟨w, x, y, z, rfl⟩ : ∃ w x y z, row = [w, x, y, z] := by
        match row, hl with
        | [w, x, y, z], _ => exact ⟨w, x, y, z, rfl⟩
      rw [ho, Option.getD_some, elemOrient_tetrahedron ho]
      simp only [List.map_cons, List.map_nil, List.sum_cons, List.sum_nil, List.getD_cons_zero, List.getD_cons_succ,
        triangleFlux, planeSide, tripleDet, id, Pi.sub_apply]
      ring
  · intro F F' vs vs' hn h1 h2
    obtain ⟨a, b, c, rfl, rfl | rfl | rfl⟩ := C114_opposite H.wf htab hpos hsep F F' vs vs' hn h1 h2 <;>
    · simp only [triangleFlux, tripleDet, Pi.sub_apply]
      ring

/-- C114: the divergence theorem for affine vector fields in the plane. -/
theorem C114_divergence_plane (H : BoundaryMade perFace un res nv groups aff0 dict btags r) {pts : List (Fin 2 → K)}
    (htab : ∀ g ∈ groups, g.fvi = [[0, 1], [2, 0], [1, 2]])
    (hpos : ∀ g ∈ groups, ∀ row ∈ g.vertexIndices, row.length = 3 ∧
      ∃ o, elemOrient pts (unitVerts (.simplex 2)) row = some o ∧ 0 < o)
    (hsep : ∀ F F' a b c c', IsNeighbor (computeFacial aff0 groups dict btags) F F' →
      faceVerts groups F = some [a, b] → IsApex groups F c → IsApex groups F' c' →
      sideOf pts a b c * sideOf pts a b c' < 0) (J : Fin 2 → Fin 2 → K) (u : Fin 2 → K) :
    (rowSum groups fun row => (J 0 0 + J 1 1) * (elemOrient pts (unitVerts (.simplex 2)) row).getD 0) =
      rowSum (bdryMeshGroups ref r) fun row => edgeFlux J u pts (row.map fun k => r.vertices.getD k 0) := by
  have hrev := C114_reversed H.wf htab hpos hsep
  have h1 := C114_volume_numbers (ref := ref) H (edgeFlux J u pts) ?_
  · rw [faceSum_rows (ψ := fun row => (J 0 0 + J 1 1) * (elemOrient pts (unitVerts (.simplex 2)) row).getD 0) ?_
      H.wf] at h1
    · exact h1
    · intro g grp el row hg hrow hel
      have hm := List.mem_of_getElem? hg
      obtain ⟨row', e1, e2⟩ := elementSum_eq (groups := groups) (H.wf _ hm) hg hel id (edgeFlux J u pts)
      rw [hrow] at e1
      obtain rfl := Option.some.inj e1
      simp only [List.map_id] at e2
      rw [e2, htab _ hm]
      obtain ⟨hl, o, ho, -⟩ := hpos grp hm row (List.mem_of_getElem? hrow)
      obtain ⟨x, y, z, rfl⟩ : ∃ x y z, row = [x, y, z] := by
        match row, hl with
        | [x, y, z], _ => exact ⟨x, y, z, rfl⟩
      rw [ho, Option.getD_some, elemOrient_triangle ho]
      simp only [List.map_cons, List.map_nil, List.sum_cons, List.sum_nil, List.getD_cons_zero, List.getD_cons_succ,
        edgeFlux, sideOf, id]
      ring
  · intro F F' vs vs' hn h1 h2
    rw [hrev F F' vs vs' hn h1 h2]
    match vs with
    | [] => simp [edgeFlux]
    | [_] => simp [edgeFlux]
    | [a, b] => simp only [List.reverse_cons, List.reverse_nil, List.nil_append, List.cons_append, edgeFlux]; ring
    | a :: b :: c :: l =>
      have : (a :: b :: c :: l).reverse.length = l.length + 3 := by simp
      match hq : (a :: b :: c :: l).reverse, this with
      | _ :: _ :: _ :: _, _ => simp [edgeFlux]

end

/-! ## Examples -/

/-- The corners of the two tetrahedra. (Example, no code.) -/
def exTwoTetsPts : List (Fin 3 → ℚ) := [![0, 0, 0], ![1, 0, 0], ![0, 1, 0], ![0, 0, 1], ![1, 1, 1]]

example : ∃ r, makeFaceRestriction true (fun _ _ => ()) (fun _ f n => (f, n)) (.tag .reallyAll) 5 exTwoTets
      (computeFacial () exTwoTets [] []) = some r ∧
    BoundaryMade true (fun _ _ => ()) (fun _ f (n : Nat) => (f, n)) 5 exTwoTets () [] [] r := by
  obtain ⟨r, hr⟩ : ∃ r, makeFaceRestriction true (fun _ _ => ()) (fun _ f (n : Nat) => (f, n)) (.tag .reallyAll) 5 exTwoTets
      (computeFacial () exTwoTets [] []) = some r := by
    rw [← Option.isSome_iff_exists]; decide +kernel
  refine ⟨r, hr, by unfold ElGroup.WF; decide +kernel, by decide, by decide, ?_, by decide, by decide, by decide, hr⟩
  apply atMostTwo_of_check
  decide +kernel

example : ∀ g ∈ exTwoTets, g.fvi = [[0, 2, 1], [0, 1, 3], [0, 3, 2], [1, 2, 3]] := by decide

-- both are positively oriented, and lie on different sides of their common face
example : ∀ g ∈ exTwoTets, ∀ row ∈ g.vertexIndices, row.length = 4 ∧
    ∃ o, elemOrient exTwoTetsPts (unitVerts (.simplex 3)) row = some o ∧ 0 < o := by
  intro g hg row hrow
  simp only [exTwoTets, List.mem_singleton] at hg
  subst hg
  simp only [List.mem_cons, List.not_mem_nil, or_false] at hrow
  rcases hrow with rfl | rfl
  · refine ⟨rfl, _, rfl, ?_⟩
    simp [orientSign, Matrix.det_fin_three]
    norm_num
  · refine ⟨rfl, _, rfl, ?_⟩
    simp [orientSign, Matrix.det_fin_three]
    norm_num

example : ∀ F F' a b c p p', IsNeighbor (computeFacial () exTwoTets [] []) F F' →
    faceVerts exTwoTets F = some [a, b, c] → IsTop exTwoTets F p → IsTop exTwoTets F' p' →
    planeSide exTwoTetsPts a b c p * planeSide exTwoTetsPts a b c p' < 0 := by
  intro F F' a b c p p' hn hv h1 h2
  rw [isNeighbor_computeFacial (by unfold ElGroup.WF; decide +kernel)] at hn
  have hp : meshFacePairs exTwoTets = [(⟨0, 0, 3⟩, ⟨0, 1, 3⟩), (⟨0, 1, 3⟩, ⟨0, 0, 3⟩)] := by decide +kernel
  rw [hp] at hn
  obtain ⟨g, row, g1, g2, g3⟩ := h1
  obtain ⟨g', row', g1', g2', g3'⟩ := h2
  simp only [List.mem_cons, Prod.mk.injEq, List.not_mem_nil, or_false] at hn
  rcases hn with ⟨rfl, rfl⟩ | ⟨rfl, rfl⟩ <;>
  · simp only [exTwoTets, List.getElem?_cons_zero, Option.some.injEq] at g1 g1'
    subst g1 g1'
    simp at g2 g2'
    subst g2 g2'
    simp at g3 g3'
    subst g3 g3'
    simp [faceVerts, exTwoTets] at hv
    obtain ⟨rfl, rfl, rfl⟩ := hv
    simp [planeSide, tripleDet, exTwoTetsPts]

-- six times the volume, from the elements and from the boundary mesh
example : (rowSum exTwoTets fun row =>
      planeSide exTwoTetsPts (row.getD 0 0) (row.getD 1 0) (row.getD 2 0) (row.getD 3 0)) = 3 ∧
    (makeFaceRestriction false (fun _ _ => ()) (fun _ f n => (f, n)) (.tag .reallyAll) 5 exTwoTets
      (computeFacial () exTwoTets [] [])).map (fun r =>
        rowSum (bdryMeshGroups (fun _ => (0, [[0, 1], [2, 0], [1, 2]])) r) fun row =>
          triangleDet exTwoTetsPts (row.map fun k => r.vertices.getD k 0)) = some 3 := by
  constructor <;> decide +kernel

-- the flux of the field (2x + y, 3y - z + 1, 5) through the boundary: five times the volume, times six
example : (makeFaceRestriction false (fun _ _ => ()) (fun _ f n => (f, n)) (.tag .reallyAll) 5 exTwoTets
      (computeFacial () exTwoTets [] [])).map (fun r =>
        rowSum (bdryMeshGroups (fun _ => (0, [[0, 1], [2, 0], [1, 2]])) r) fun row =>
          triangleFlux ![![2, 1, 0], ![0, 3, -1], ![0, 0, 0]] ![0, 1, 5] exTwoTetsPts
            (row.map fun k => r.vertices.getD k 0)) = some 15 := by
  decide +kernel

-- the field (2x + y, 3y - x + 1) on the unit square of `exTwoTri` (hypotheses shown in Connection/Conservation)
example : (exTwoTriBdry false).map (fun r => rowSum (bdryMeshGroups (fun _ => (0, [[0], [1]])) r) fun row =>
    edgeFlux ![![2, 1], ![-1, 3]] ![0, 1] exTwoTriPts (row.map fun k => r.vertices.getD k 0)) = some 10 := by
  decide +kernel

end Meshmode
