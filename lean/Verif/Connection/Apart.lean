import Verif.Connection.Enclosed
import Verif.Gen.BoxVolume
import Verif.Gen.BoxCover
import Verif.Mesh.Commute

/-!
# Elements that do not overlap, and the boundary of box meshes (C130)

Of a mesh the elements of which do not overlap, neighbors are on different sides of their common face, as assumed in
C114.  So the boundary mesh that `make_face_restriction` (meshmode/discretization/connection/face.py:134-401) makes of a
box mesh (`generate_box_mesh`, meshmode/mesh/generation.py:1191-1637) encloses the box.  No new code is modelled.
-/
namespace Meshmode

variable {N M U A K : Type}

section
variable {perFace : Bool} {groups : List (ElGroup N)} {un : Nat → Nat → U} {res : Nat → Nat → N → M} {nv : Nat}
  {ref : Nat → Nat × List (List Nat)} {r : FaceRestr M U} {aff0 : A} {dict : List (List Nat × List BTag)}
  {btags : List BTag} [Field K] [LinearOrder K]

/-! ## Specification -/

/-- The point `pt` is the combination with weights `w` of the vertices with the numbers `row`.
(Specification or proof vocabulary, no code.) -/
def InElement {d : Nat} (pts : List (Fin d → K)) (row : List Nat) (w : List K) (pt : Fin d → K) : Prop :=
  w.length = row.length ∧ (∀ b ∈ w, 0 ≤ b) ∧ w.sum = 1 ∧
    ∀ i, pt i = (List.zipWith (fun b v => b * pts.getD v 0 i) w row).sum

/-- No point inside one element (all weights positive) belongs to another element.
(Specification or proof vocabulary, no code.) -/
def NoOverlap {d : Nat} (groups : List (ElGroup N)) (pts : List (Fin d → K)) : Prop :=
  ∀ (g e g' e' : Nat) grp grp' row row' w w' pt, groups[g]? = some grp → grp.vertexIndices[e]? = some row →
    groups[g']? = some grp' → grp'.vertexIndices[e']? = some row' → InElement pts row w pt → (∀ b ∈ w, 0 < b) →
    InElement pts row' w' pt → g = g' ∧ e = e'

/-! ## Lemmas -/

theorem inElement_of_perm {d : Nat} (pts : List (Fin d → K)) {row L : List Nat} (h : row.Perm L) (u : Nat → K)
    (h0 : ∀ v ∈ L, 0 ≤ u v) (h1 : (L.map u).sum = 1) :
    InElement pts row (row.map u) fun i => (L.map fun v => u v * pts.getD v 0 i).sum := by
  refine ⟨by simp, ?_, by rw [(h.map u).sum_eq, h1], fun i => ?_⟩
  · intro b hb
    obtain ⟨v, hv, rfl⟩ := List.mem_map.1 hb
    exact h0 v (h.mem_iff.1 hv)
  · simp only
    rw [← (h.map fun v => u v * pts.getD v 0 i).sum_eq]
    congr 1
    rw [List.zipWith_map_left, List.zipWith_self]

variable [IsStrictOrderedRing K]

theorem small_step (α β γ : K) : ∃ t e : K, 0 < t ∧ 0 < e ∧ 3 * t + e = 1 ∧
    0 ≤ t + e * α ∧ 0 ≤ t + e * β ∧ 0 ≤ t + e * γ := by
  have hM : 0 < 2 + 3 * (|α| + |β| + |γ|) := by positivity
  have e0 : 0 < 1 / (2 + 3 * (|α| + |β| + |γ|)) := by positivity
  have e1 : 1 / (2 + 3 * (|α| + |β| + |γ|)) * (2 + 3 * (|α| + |β| + |γ|)) = 1 := by field_simp
  generalize 1 / (2 + 3 * (|α| + |β| + |γ|)) = e at e0 e1
  have a1 := mul_nonneg e0.le (abs_nonneg α)
  have a2 := mul_nonneg e0.le (abs_nonneg β)
  have a3 := mul_nonneg e0.le (abs_nonneg γ)
  have b1 := mul_le_mul_of_nonneg_left (neg_abs_le α) e0.le
  have b2 := mul_le_mul_of_nonneg_left (neg_abs_le β) e0.le
  have b3 := mul_le_mul_of_nonneg_left (neg_abs_le γ) e0.le
  refine ⟨(1 - e) / 3, e, ?_, e0, ?_, ?_, ?_, ?_⟩ <;> linarith

theorem common_tet {pts : List (Fin 3 → K)} {a b c p q : Nat} (h : 0 < planeSide pts a b c p * planeSide pts a b c q) :
    ∃ α β γ δ : K, 0 < δ ∧ α + β + γ + δ = 1 ∧ ∀ i, pts.getD p 0 i =
      α * pts.getD a 0 i + β * pts.getD b 0 i + γ * pts.getD c 0 i + δ * pts.getD q 0 i := by
  have hS : planeSide pts a b c q ≠ 0 := by rintro h0; rw [h0, mul_zero] at h; exact lt_irrefl _ h
  refine ⟨planeSide pts p b c q / planeSide pts a b c q, planeSide pts a p c q / planeSide pts a b c q,
    planeSide pts a b p q / planeSide pts a b c q, planeSide pts a b c p / planeSide pts a b c q, ?_, ?_, ?_⟩
  · rcases mul_pos_iff.1 h with ⟨h1, h2⟩ | ⟨h1, h2⟩
    · exact div_pos h1 h2
    · exact div_pos_of_neg_of_neg h1 h2
  · rw [← add_div, ← add_div, ← add_div, div_eq_one_iff_eq hS]
    simp only [planeSide, tripleDet, Pi.sub_apply]
    ring
  · intro i
    rw [div_mul_eq_mul_div, div_mul_eq_mul_div, div_mul_eq_mul_div, div_mul_eq_mul_div, ← add_div, ← add_div, ← add_div,
      eq_div_iff hS]
    simp only [planeSide, tripleDet, Pi.sub_apply]
    fin_cases i <;> simp only [Fin.zero_eta, Fin.mk_one, Fin.reduceFinMk] <;> ring

theorem common_tri {pts : List (Fin 2 → K)} {a b p q : Nat} (h : 0 < sideOf pts a b p * sideOf pts a b q) :
    ∃ α β δ : K, 0 < δ ∧ α + β + δ = 1 ∧ ∀ i, pts.getD p 0 i =
      α * pts.getD a 0 i + β * pts.getD b 0 i + δ * pts.getD q 0 i := by
  have hS : sideOf pts a b q ≠ 0 := by rintro h0; rw [h0, mul_zero] at h; exact lt_irrefl _ h
  refine ⟨sideOf pts p b q / sideOf pts a b q, sideOf pts a p q / sideOf pts a b q,
    sideOf pts a b p / sideOf pts a b q, ?_, ?_, ?_⟩
  · rcases mul_pos_iff.1 h with ⟨h1, h2⟩ | ⟨h1, h2⟩
    · exact div_pos h1 h2
    · exact div_pos_of_neg_of_neg h1 h2
  · rw [← add_div, ← add_div, div_eq_one_iff_eq hS]
    simp only [sideOf]
    ring
  · intro i
    rw [div_mul_eq_mul_div, div_mul_eq_mul_div, div_mul_eq_mul_div, ← add_div, ← add_div, eq_div_iff hS]
    simp only [sideOf]
    fin_cases i <;> simp only [Fin.zero_eta, Fin.mk_one] <;> ring

omit [LinearOrder K] [IsStrictOrderedRing K] in
theorem planeSide_distinct {pts : List (Fin 3 → K)} {a b c p : Nat} (h : planeSide pts a b c p ≠ 0) :
    [a, b, c, p].Nodup := by
  have : a ≠ b ∧ a ≠ c ∧ a ≠ p ∧ b ≠ c ∧ b ≠ p ∧ c ≠ p := by
    refine ⟨?_, ?_, ?_, ?_, ?_, ?_⟩ <;> rintro rfl <;> refine h ?_ <;>
      simp only [planeSide, tripleDet, Pi.sub_apply] <;> ring
  simp [this]

omit [LinearOrder K] [IsStrictOrderedRing K] in
theorem sideOf_distinct {pts : List (Fin 2 → K)} {a b p : Nat} (h : sideOf pts a b p ≠ 0) : [a, b, p].Nodup := by
  have : a ≠ b ∧ a ≠ p ∧ b ≠ p := by
    refine ⟨?_, ?_, ?_⟩ <;> rintro rfl <;> refine h ?_ <;> simp only [sideOf] <;> ring
  simp [this]

omit [LinearOrder K] [IsStrictOrderedRing K] in
theorem planeSide_ne_perm {pts : List (Fin 3 → K)} {a b c a' b' c' p : Nat} (hp : [a, b, c].Perm [a', b', c'])
    (h : planeSide pts a' b' c' p ≠ 0) : planeSide pts a b c p ≠ 0 := by
  have hd := planeSide_distinct h
  simp only [List.nodup_cons, List.mem_cons, List.not_mem_nil, or_false, not_or] at hd
  have q : ∀ v, v ∈ [a, b, c] ↔ v ∈ [a', b', c'] := fun v => hp.mem_iff
  simp only [List.mem_cons, List.not_mem_nil, or_false] at q
  obtain ⟨r1, r2, r3, _⟩ := planeSide_perm pts a' b' c' p
  have r4 : planeSide pts a' c' b' p = -planeSide pts a' b' c' p := by
    simp only [planeSide, tripleDet, Pi.sub_apply]; ring
  have r5 : planeSide pts c' b' a' p = -planeSide pts a' b' c' p := by
    simp only [planeSide, tripleDet, Pi.sub_apply]; ring
  rcases three_of_three hd.1.1 hd.2.1.1 hd.1.2.1 ((q a).1 (by simp)) ((q b).1 (by simp)) ((q c).1 (by simp))
    ((q a').2 (by simp)) ((q b').2 (by simp)) ((q c').2 (by simp)) with
    ⟨rfl, rfl, rfl⟩ | ⟨rfl, rfl, rfl⟩ | ⟨rfl, rfl, rfl⟩ | ⟨rfl, rfl, rfl⟩ | ⟨rfl, rfl, rfl⟩ | ⟨rfl, rfl, rfl⟩
  · exact h
  · rwa [r1]
  · rwa [r2]
  · rw [r3]; exact neg_ne_zero.2 h
  · rw [r4]; exact neg_ne_zero.2 h
  · rw [r5]; exact neg_ne_zero.2 h

/-! ## Properties -/

/-- C130: positively oriented tetrahedra that do not overlap are on different sides of their common face. -/
theorem C130_apart (hwf : ∀ g ∈ groups, g.WF) {pts : List (Fin 3 → K)}
    (htab : ∀ g ∈ groups, g.fvi = [[0, 2, 1], [0, 1, 3], [0, 3, 2], [1, 2, 3]])
    (hpos : ∀ g ∈ groups, ∀ row ∈ g.vertexIndices, row.length = 4 ∧
      ∃ o, elemOrient pts (unitVerts (.simplex 3)) row = some o ∧ 0 < o)
    (hno : NoOverlap groups pts) (F F' : FaceId) (a b c p p' : Nat)
    (hn : IsNeighbor (computeFacial aff0 groups dict btags) F F') (h1 : faceVerts groups F = some [a, b, c])
    (hp : IsTop groups F p) (hp' : IsTop groups F' p') : planeSide pts a b c p * planeSide pts a b c p' < 0 := by
  obtain ⟨_, hne, k1, k2, us, us', k3, k4, k5⟩ := C02_facial_adjacency_symmetric hwf aff0 dict btags F F' hn
  rw [h1] at k3; obtain rfl := Option.some.inj k3
  obtain ⟨a1, b1, c1, p1, grp, row, e1, n1, n2, n3, n4, n5⟩ := tet_face hwf htab hpos k1 h1
  obtain ⟨rfl, rfl, rfl⟩ : a = a1 ∧ b = b1 ∧ c = c1 := by simpa using e1
  obtain ⟨a', b', c', p1', grp', row', rfl, n1', n2', n3', n4', n5'⟩ := tet_face hwf htab hpos k2 k4
  obtain rfl : p = p1 := by
    obtain ⟨x, y, x1, x2, x3⟩ := hp
    rw [n1] at x1; obtain rfl := Option.some.inj x1
    rw [n2] at x2; obtain rfl := Option.some.inj x2
    rw [n4] at x3; exact (Option.some.inj x3).symm
  obtain rfl : p' = p1' := by
    obtain ⟨x, y, x1, x2, x3⟩ := hp'
    rw [n1'] at x1; obtain rfl := Option.some.inj x1
    rw [n2'] at x2; obtain rfl := Option.some.inj x2
    rw [n4'] at x3; exact (Option.some.inj x3).symm
  have z2 : planeSide pts a b c p' ≠ 0 := planeSide_ne_perm k5 n5'.ne
  have n6' : row'.Perm [a, b, c, p'] := n3'.trans ((k5.symm.append_right [p']))
  have d1 := planeSide_distinct n5.ne
  have d2 := planeSide_distinct z2
  have hel : ¬ (F.grp = F'.grp ∧ F.el = F'.el) := by
    rintro ⟨g1, g2⟩
    rw [← g1, n1] at n1'; obtain rfl := Option.some.inj n1'
    rw [← g2, n2] at n2'; obtain rfl := Option.some.inj n2'
    have hpp : p = p' := by
      have : p ∈ [a, b, c, p'] := (n3.symm.trans n6').mem_iff.1 (by simp)
      simp only [List.nodup_cons, List.mem_cons, List.not_mem_nil, or_false, not_or] at this d1
      omega
    subst hpp
    have hnd : row.Nodup := n3.nodup_iff.2 d1
    have hi := (List.getElem?_eq_some_iff.1 n4).1
    have hj := (List.getElem?_inj hi hnd).1 (n4.trans n4'.symm)
    have f4 : ∀ F, IsFace groups F → F.face < 4 := by
      rintro F ⟨g, hg, hf, _⟩
      have : g.nfaces = 4 := by rw [ElGroup.nfaces, htab _ (List.mem_of_getElem? hg)]; rfl
      omega
    have := f4 F k1
    have := f4 F' k2
    exact hne (by
      obtain ⟨x1, x2, x3⟩ := F
      obtain ⟨y1, y2, y3⟩ := F'
      simp only at *
      rw [g1, g2, show x3 = y3 by omega])
  by_contra hlt
  have hgt : 0 < planeSide pts a b c p * planeSide pts a b c p' :=
    lt_of_le_of_ne (not_lt.1 hlt) (mul_ne_zero n5.ne z2).symm
  obtain ⟨α, β, γ, δ, hδ, hs, hcomb⟩ := common_tet hgt
  obtain ⟨t, e, ht, he, hte, q1, q2, q3⟩ := small_step α β γ
  simp only [List.nodup_cons, List.mem_cons, List.not_mem_nil, or_false, not_or] at d1 d2
  have x1 := inElement_of_perm pts n3 (fun v => if v = p then e else t) ?_ ?_
  · have x2 := inElement_of_perm pts n6' (fun v => if v = a then t + e * α else if v = b then t + e * β else
      if v = c then t + e * γ else e * δ) ?_ ?_
    · refine hel (hno _ _ _ _ _ _ _ _ _ (row'.map (fun v => if v = a then t + e * α else if v = b then t + e * β else
      if v = c then t + e * γ else e * δ)) _ n1 n2 n1' n2' x1 ?_ ?_)
      · intro w hw
        obtain ⟨v, _, rfl⟩ := List.mem_map.1 hw
        split_ifs <;> assumption
      · convert x2 using 1
        funext i
        simp only [List.map_cons, List.map_nil, List.sum_cons, List.sum_nil, d1.1.2.2, d1.2.1.2, d1.2.2.1, if_false, if_true,
          Ne.symm d2.1.1, Ne.symm d2.1.2.1, Ne.symm d2.1.2.2, Ne.symm d2.2.1.1, Ne.symm d2.2.1.2, Ne.symm d2.2.2.1]
        rw [hcomb i]
        ring
    · intro v _
      split_ifs
      · exact q1
      · exact q2
      · exact q3
      · exact (mul_pos he hδ).le
    · simp only [List.map_cons, List.map_nil, List.sum_cons, List.sum_nil, if_false, if_true,
          Ne.symm d2.1.1, Ne.symm d2.1.2.1, Ne.symm d2.1.2.2, Ne.symm d2.2.1.1, Ne.symm d2.2.1.2, Ne.symm d2.2.2.1]
      linear_combination hte + e * hs
  · intro v _
    split_ifs
    · exact he.le
    · exact ht.le
  · simp only [List.map_cons, List.map_nil, List.sum_cons, List.sum_nil, d1.1.2.2, d1.2.1.2, d1.2.2.1, if_false, if_true]
    linear_combination hte

omit [IsStrictOrderedRing K] in
/-- Each face of a positively oriented triangle has the third corner on its positive side. -/
theorem tri_face (hwf : ∀ g ∈ groups, g.WF) {pts : List (Fin 2 → K)}
    (htab : ∀ g ∈ groups, g.fvi = [[0, 1], [2, 0], [1, 2]])
    (hpos : ∀ g ∈ groups, ∀ row ∈ g.vertexIndices, row.length = 3 ∧
      ∃ o, elemOrient pts (unitVerts (.simplex 2)) row = some o ∧ 0 < o) {F : FaceId} {vs : List Nat}
    (hF : IsFace groups F) (hvs : faceVerts groups F = some vs) :
    ∃ a b p grp row, vs = [a, b] ∧ groups[F.grp]? = some grp ∧ grp.vertexIndices[F.el]? = some row ∧
      row.Perm [a, b, p] ∧ row[2 - F.face]? = some p ∧ 0 < sideOf pts a b p := by
  obtain ⟨g, el, f⟩ := F
  obtain ⟨grp, hg, hf, hel⟩ := hF
  simp only at hg hf hel
  have hm := List.mem_of_getElem? hg
  have hel' : el < grp.vertexIndices.length := by rw [(hwf _ hm).1]; exact hel
  have hrow := List.getElem?_eq_getElem hel'
  obtain ⟨hl, o, ho, hp⟩ := hpos grp hm _ (List.getElem_mem hel')
  generalize grp.vertexIndices[el] = row at hrow hl ho
  obtain ⟨x, y, z, rfl⟩ : ∃ x y z, row = [x, y, z] := by
    match row, hl with
    | [x, y, z], _ => exact ⟨x, y, z, rfl⟩
  rw [elemOrient_triangle ho] at hp
  rw [faceVerts_table hg hrow, htab _ hm] at hvs
  have hf3 : f < 3 := by
    have : grp.nfaces = 3 := by rw [ElGroup.nfaces, htab _ hm]; rfl
    omega
  have hperm : ∀ l : List Nat, [0, 1, 2].Perm l →
      [x, y, z].Perm (l.map fun i => [x, y, z].getD i 0) := fun l hl => hl.map fun i => [x, y, z].getD i 0
  interval_cases f
  · exact ⟨x, y, z, grp, _, by simpa [tableVerts] using hvs.symm, hg, hrow, hperm [0, 1, 2] (by decide), rfl, hp⟩
  · refine ⟨z, x, y, grp, _, by simpa [tableVerts] using hvs.symm, hg, hrow, hperm [2, 0, 1] (by decide), rfl, ?_⟩
    have : sideOf pts z x y = sideOf pts x y z := by unfold sideOf; ring
    rwa [this]
  · refine ⟨y, z, x, grp, _, by simpa [tableVerts] using hvs.symm, hg, hrow, hperm [1, 2, 0] (by decide), rfl, ?_⟩
    have : sideOf pts y z x = sideOf pts x y z := by unfold sideOf; ring
    rwa [this]

/-- C130: positively oriented triangles that do not overlap are on different sides of their common face. -/
theorem C130_apart_plane (hwf : ∀ g ∈ groups, g.WF) {pts : List (Fin 2 → K)}
    (htab : ∀ g ∈ groups, g.fvi = [[0, 1], [2, 0], [1, 2]])
    (hpos : ∀ g ∈ groups, ∀ row ∈ g.vertexIndices, row.length = 3 ∧
      ∃ o, elemOrient pts (unitVerts (.simplex 2)) row = some o ∧ 0 < o)
    (hno : NoOverlap groups pts) (F F' : FaceId) (a b p p' : Nat)
    (hn : IsNeighbor (computeFacial aff0 groups dict btags) F F') (h1 : faceVerts groups F = some [a, b])
    (hp : IsApex groups F p) (hp' : IsApex groups F' p') : sideOf pts a b p * sideOf pts a b p' < 0 := by
  obtain ⟨_, hne, k1, k2, us, us', k3, k4, k5⟩ := C02_facial_adjacency_symmetric hwf aff0 dict btags F F' hn
  rw [h1] at k3; obtain rfl := Option.some.inj k3
  obtain ⟨a1, b1, p1, grp, row, e1, n1, n2, n3, n4, n5⟩ := tri_face hwf htab hpos k1 h1
  obtain ⟨rfl, rfl⟩ : a = a1 ∧ b = b1 := by simpa using e1
  obtain ⟨a', b', p1', grp', row', rfl, n1', n2', n3', n4', n5'⟩ := tri_face hwf htab hpos k2 k4
  obtain rfl : p = p1 := by
    obtain ⟨x, y, x1, x2, x3⟩ := hp
    rw [n1] at x1; obtain rfl := Option.some.inj x1
    rw [n2] at x2; obtain rfl := Option.some.inj x2
    rw [n4] at x3; exact (Option.some.inj x3).symm
  obtain rfl : p' = p1' := by
    obtain ⟨x, y, x1, x2, x3⟩ := hp'
    rw [n1'] at x1; obtain rfl := Option.some.inj x1
    rw [n2'] at x2; obtain rfl := Option.some.inj x2
    rw [n4'] at x3; exact (Option.some.inj x3).symm
  have z2 : sideOf pts a b p' ≠ 0 := by
    have hab : (a' = a ∧ b' = b) ∨ (a' = b ∧ b' = a) := by
      have q1 : a' ∈ [a, b] := k5.mem_iff.2 (by simp)
      have q2 : b' ∈ [a, b] := k5.mem_iff.2 (by simp)
      have q3 : a ∈ [a', b'] := k5.mem_iff.1 (by simp)
      have q4 : b ∈ [a', b'] := k5.mem_iff.1 (by simp)
      simp only [List.mem_cons, List.not_mem_nil, or_false] at q1 q2 q3 q4
      omega
    rcases hab with ⟨rfl, rfl⟩ | ⟨rfl, rfl⟩
    · exact n5'.ne'
    · have : sideOf pts b' a' p' = -sideOf pts a' b' p' := by unfold sideOf; ring
      rw [this]
      exact neg_ne_zero.2 n5'.ne'
  have n6' : row'.Perm [a, b, p'] := n3'.trans ((k5.symm.append_right [p']))
  have d1 := sideOf_distinct n5.ne'
  have d2 := sideOf_distinct z2
  have hel : ¬ (F.grp = F'.grp ∧ F.el = F'.el) := by
    rintro ⟨g1, g2⟩
    rw [← g1, n1] at n1'; obtain rfl := Option.some.inj n1'
    rw [← g2, n2] at n2'; obtain rfl := Option.some.inj n2'
    have hpp : p = p' := by
      have : p ∈ [a, b, p'] := (n3.symm.trans n6').mem_iff.1 (by simp)
      simp only [List.nodup_cons, List.mem_cons, List.not_mem_nil, or_false, not_or] at this d1
      omega
    subst hpp
    have hnd : row.Nodup := n3.nodup_iff.2 d1
    have hi := (List.getElem?_eq_some_iff.1 n4).1
    have hj := (List.getElem?_inj hi hnd).1 (n4.trans n4'.symm)
    have f3 : ∀ F, IsFace groups F → F.face < 3 := by
      rintro F ⟨g, hg, hf, _⟩
      have : g.nfaces = 3 := by rw [ElGroup.nfaces, htab _ (List.mem_of_getElem? hg)]; rfl
      omega
    have := f3 F k1
    have := f3 F' k2
    exact hne (by
      obtain ⟨x1, x2, x3⟩ := F
      obtain ⟨y1, y2, y3⟩ := F'
      simp only at *
      rw [g1, g2, show x3 = y3 by omega])
  by_contra hlt
  have hgt : 0 < sideOf pts a b p * sideOf pts a b p' :=
    lt_of_le_of_ne (not_lt.1 hlt) (mul_ne_zero n5.ne' z2).symm
  obtain ⟨α, β, δ, hδ, hs, hcomb⟩ := common_tri hgt
  obtain ⟨t, e, ht, he, hte, q1, q2, _⟩ := small_step (α * (2 / 3)) (β * (2 / 3)) 0
  simp only [List.nodup_cons, List.mem_cons, List.not_mem_nil, or_false, not_or] at d1 d2
  have x1 := inElement_of_perm pts n3 (fun v => if v = p then e else 3 / 2 * t) ?_ ?_
  · have x2 := inElement_of_perm pts n6' (fun v => if v = a then 3 / 2 * t + e * α else
      if v = b then 3 / 2 * t + e * β else e * δ) ?_ ?_
    · refine hel (hno _ _ _ _ _ _ _ _ _ (row'.map (fun v => if v = a then 3 / 2 * t + e * α else
      if v = b then 3 / 2 * t + e * β else e * δ)) _ n1 n2 n1' n2' x1 ?_ ?_)
      · intro w hw
        obtain ⟨v, _, rfl⟩ := List.mem_map.1 hw
        split_ifs
        · exact he
        · linarith
      · convert x2 using 1
        funext i
        simp only [List.map_cons, List.map_nil, List.sum_cons, List.sum_nil, d1.1.2, d1.2.1, if_false, if_true,
          Ne.symm d2.1.1, Ne.symm d2.1.2, Ne.symm d2.2.1]
        rw [hcomb i]
        ring
    · intro v _
      split_ifs
      · linarith
      · linarith
      · exact (mul_pos he hδ).le
    · simp only [List.map_cons, List.map_nil, List.sum_cons, List.sum_nil, if_false, if_true,
          Ne.symm d2.1.1, Ne.symm d2.1.2, Ne.symm d2.2.1]
      linear_combination hte + e * hs
  · intro v _
    split_ifs
    · exact he.le
    · linarith
  · simp only [List.map_cons, List.map_nil, List.sum_cons, List.sum_nil, d1.1.2, d1.2.1, if_false, if_true]
    linear_combination hte

/-! ## Boxes -/

omit [LinearOrder K] [IsStrictOrderedRing K] in
theorem mapM_some_getD {f : List Nat → Option K} {rows : List (List Nat)} {l : List K} (h : rows.mapM f = some l) :
    l = rows.map (fun row => (f row).getD 0) ∧ ∀ row ∈ rows, ∃ o ∈ l, f row = some o := by
  induction rows generalizing l with
  | nil => simp at h; simp [h]
  | cons row rows ih =>
    simp only [List.mapM_cons, Option.bind_eq_bind, Option.pure_def, Option.bind_eq_some_iff, Option.some.injEq] at h
    obtain ⟨o, ho, l', hl', rfl⟩ := h
    obtain ⟨e, hr⟩ := ih hl'
    refine ⟨by simp [ho, ← e], ?_⟩
    intro row' hrow'
    rcases List.mem_cons.1 hrow' with rfl | hm
    · exact ⟨o, List.mem_cons_self, ho⟩
    · obtain ⟨o', h1, h2⟩ := hr row' hm
      exact ⟨o', List.mem_cons_of_mem _ h1, h2⟩

omit [LinearOrder K] [IsStrictOrderedRing K] in
theorem boxMesh_orient_rows {d : Nat} {axes : List (List K)} {kind : BoxKind} {g : ElGroup N} {s : GShape}
    {lazy : LazyMesh (List Nat × List Nat) (List (List (Fag A)))} {os : List (Option K)}
    (h : meshOrient (fun _ => s) false (boxMesh d axes kind g lazy) = .ok os) :
    ∃ l, g.vertexIndices.mapM (elemOrient (boxPoints d axes kind) (unitVerts s)) = some l ∧ os = l.map some := by
  unfold meshOrient boxMesh at h
  simp only [List.isEmpty_cons, Bool.false_eq_true, if_false, orientLoop] at h
  cases hg : groupOrient (fun _ => s) (boxPoints d axes kind) g with
  | error e => rw [hg] at h; cases e <;> simp at h
  | ok l =>
    rw [hg] at h
    simp only [List.append_nil, Except.ok.injEq] at h
    refine ⟨l, ?_, h.symm⟩
    unfold groupOrient at hg
    split at hg
    · simp at hg
    · split_ifs at hg
      split at hg
      · simp at hg
      · rename_i heq
        rw [heq, Except.ok.inj hg]

/-- The elements of a box mesh: their orientations are positive and add up to the volume of the box. -/
theorem box_rows {nodeOf : List Nat → N} {axes : List (List K)} {kind : BoxKind} {g : ElGroup N}
    (h : generateBox nodeOf (axes.map List.length) kind = some g) (hinc : ∀ ax ∈ axes, ax.Pairwise (· < ·)) :
    (∀ row ∈ g.vertexIndices, ∃ o,
      elemOrient (boxPoints axes.length axes kind) (unitVerts (boxGShape axes.length kind)) row = some o ∧ 0 < o) ∧
    (rowSum [g] fun row =>
      (elemOrient (boxPoints axes.length axes kind) (unitVerts (boxGShape axes.length kind)) row).getD 0) =
      boxFactor axes.length kind * boxVolume axes := by
  have lazy : LazyMesh (List Nat × List Nat) (List (List (Fag Unit))) := LazyMesh.make (fun x => x) true none .missing .missing
  obtain ⟨os, h1, _, h3⟩ := C128_positive (A := Unit) h hinc (shape := fun _ => boxGShape axes.length kind) rfl false lazy
  obtain ⟨xs, h4, h5⟩ := C128_volume (A := Unit) h (shape := fun _ => boxGShape axes.length kind) rfl false lazy
  obtain ⟨l, h6, rfl⟩ := boxMesh_orient_rows h1
  obtain ⟨h7, h8⟩ := mapM_some_getD h6
  rw [h1] at h4
  have : l = xs := List.map_injective_iff.2 (Option.some_injective K) (Except.ok.inj h4)
  subst this
  refine ⟨fun row hrow => ?_, ?_⟩
  · obtain ⟨o, ho, e⟩ := h8 row hrow
    obtain ⟨x, hx, hp⟩ := h3 _ (List.mem_map.2 ⟨o, ho, rfl⟩)
    obtain rfl := Option.some.inj hx
    exact ⟨o, e, hp⟩
  · rw [← h5, h7]
    simp [rowSum]

/-- C130: the elements of a box mesh do not overlap. -/
theorem C130_box {nodeOf : List Nat → N} {axes : List (List K)} {kind : BoxKind} {g : ElGroup N}
    (h : generateBox nodeOf (axes.map List.length) kind = some g) (hinc : ∀ ax ∈ axes, ax.Pairwise (· < ·)) :
    NoOverlap [g] (boxPoints axes.length axes kind) := by
  intro k e k' e' grp grp' row row' w w' pt hk he hk' he' h1 hp h2
  obtain ⟨rfl, rfl⟩ : k = 0 ∧ grp = g := by
    match k, hk with
    | 0, hk => exact ⟨rfl, by simpa using hk.symm⟩
  obtain ⟨rfl, rfl⟩ : k' = 0 ∧ grp' = grp := by
    match k', hk' with
    | 0, hk' => exact ⟨rfl, by simpa using hk'.symm⟩
  refine ⟨rfl, ?_⟩
  have hc : ∀ row w, InElement (boxPoints axes.length axes kind) row w pt →
      IsCombination axes.length (boxVertices axes kind) row w
        (fun a => if ha : a < axes.length then pt ⟨a, ha⟩ else 0) := by
    rintro row w ⟨q1, q2, q3, q4⟩
    refine ⟨q1, ⟨q2, q3⟩, fun a ha => ?_⟩
    simp only
    rw [dif_pos ha, q4, combo]
    congr 1
    rw [List.zipWith_map_right]
    congr 1
    funext b v
    congr 1
    simp only [boxPoints, List.getD_eq_getElem?_getD, List.getElem?_map]
    cases (boxVertices axes kind)[v]? <;> simp
  exact C21_disjoint h hinc _ he he' (hc row w h1) hp (hc row' w' h2)

/-- C130: the boundary mesh of a three-dimensional box of tetrahedra is a closed surface, consistently oriented; the flux of
an affine vector field through it is its divergence times the volume of the box. -/
theorem C130_box_surface {nodeOf : List Nat → N} {ax ay az : List K} {g : ElGroup N}
    (h : generateBox nodeOf [ax.length, ay.length, az.length] .simplex = some g)
    (hinc : ∀ l ∈ [ax, ay, az], l.Pairwise (· < ·)) (h1 : BTag.reallyAll ∉ btags) (h2 : BTag.all ∉ btags) (h3 : btags.Nodup)
    (hmade : makeFaceRestriction perFace un res (.tag .reallyAll) (boxVertices [ax, ay, az] .simplex).length [g]
      (computeFacial aff0 [g] dict btags) = some r) :
    (∀ a b, (((bdryMeshGroups ref r).flatMap ElGroup.vertexIndices).flatMap dirEdges).count (a, b) =
      (((bdryMeshGroups ref r).flatMap ElGroup.vertexIndices).flatMap dirEdges).count (b, a)) ∧
    ∀ (J : Fin 3 → Fin 3 → K) (u : Fin 3 → K),
      (rowSum (bdryMeshGroups ref r) fun row =>
        triangleFlux J u (boxPoints 3 [ax, ay, az] .simplex) (row.map fun k => r.vertices.getD k 0)) =
      (J 0 0 + J 1 1 + J 2 2) * (6 * boxVolume [ax, ay, az]) := by
  have hb := box_rows (axes := [ax, ay, az]) h hinc
  have hno := C130_box (axes := [ax, ay, az]) h hinc
  obtain ⟨hrows, hsum⟩ := hb
  have hel := (C21_elements (axes := [ax, ay, az]) h).2
  have htwo := (C21_faces h).1
  obtain ⟨T, hT, _, hok, _, hg⟩ := generateBox_eq h
  obtain rfl := Option.some.inj hT
  have hwf := box_wf (nodeOf := nodeOf) (n := boxShape [ax.length, ay.length, az.length])
    (m := boxCellShape [ax.length, ay.length, az.length]) hok
  rw [← hg] at hwf
  have hlen : ∀ row ∈ g.vertexIndices, row.length = 4 := by
    intro row hrow
    rw [hg] at hrow
    simp only [boxGroup, boxElements, List.mem_flatMap, List.mem_map] at hrow
    obtain ⟨c, _, sub, hs, rfl⟩ := hrow
    rw [List.length_map]
    simp only [List.mem_cons, List.not_mem_nil, or_false] at hs
    rcases hs with rfl | rfl | rfl | rfl | rfl | rfl <;> rfl
  have hfvi : g.fvi = [[0, 2, 1], [0, 1, 3], [0, 3, 2], [1, 2, 3]] := by rw [hg]; rfl
  have htab : ∀ g' ∈ [g], g'.fvi = [[0, 2, 1], [0, 1, 3], [0, 3, 2], [1, 2, 3]] := by
    intro g' hg'
    rw [List.mem_singleton.1 hg', hfvi]
  have hpos : ∀ g' ∈ [g], ∀ row ∈ g'.vertexIndices, row.length = 4 ∧
      ∃ o, elemOrient (boxPoints 3 [ax, ay, az] .simplex) (unitVerts (.simplex 3)) row = some o ∧ 0 < o := by
    intro g' hg' row hrow
    rw [List.mem_singleton.1 hg'] at hrow
    exact ⟨hlen row hrow, hrows row hrow⟩
  have H : BoundaryMade perFace un res (boxVertices [ax, ay, az] .simplex).length [g] aff0 dict btags r :=
    ⟨hwf, fun g' hg' => by rw [ElGroup.nfaces, htab g' hg']; decide,
      fun g' hg' row hrow v hv => by rw [List.mem_singleton.1 hg'] at hrow; exact (hel row hrow).2 v hv,
      htwo, h1, h2, h3, hmade⟩
  have hsep := C130_apart (aff0 := aff0) (dict := dict) (btags := btags) hwf htab hpos hno
  refine ⟨C114_tetrahedra H htab hpos hsep, fun J u => ?_⟩
  rw [← C114_divergence H htab hpos hsep J u]
  have h6 : (boxFactor 3 .simplex : K) = 6 := by simp [boxFactor, Nat.factorial]
  have hs : (rowSum [g] fun row =>
      (elemOrient (boxPoints 3 [ax, ay, az] .simplex) (unitVerts (.simplex 3)) row).getD 0) =
      boxFactor 3 .simplex * boxVolume [ax, ay, az] := hsum
  rw [← h6, ← hs]
  simp [rowSum, List.sum_map_mul_left]

/-- C130: the boundary mesh of a two-dimensional box of triangles ("X" or not) consists of closed curves, consistently
directed; the flux of an affine vector field through it is its divergence times the area of the box. -/
theorem C130_box_curve {nodeOf : List Nat → N} {ax ay : List K} {kind : BoxKind} (hk : kind ≠ .tensor) {g : ElGroup N}
    (h : generateBox nodeOf [ax.length, ay.length] kind = some g)
    (hinc : ∀ l ∈ [ax, ay], l.Pairwise (· < ·)) (h1 : BTag.reallyAll ∉ btags) (h2 : BTag.all ∉ btags) (h3 : btags.Nodup)
    (hmade : makeFaceRestriction perFace un res (.tag .reallyAll) (boxVertices [ax, ay] kind).length [g]
      (computeFacial aff0 [g] dict btags) = some r) :
    (∀ k, (((bdryMeshGroups ref r).flatMap ElGroup.vertexIndices).countP fun row => row.head? == some k) =
      ((bdryMeshGroups ref r).flatMap ElGroup.vertexIndices).countP fun row => row.getLast? == some k) ∧
    ∀ (J : Fin 2 → Fin 2 → K) (u : Fin 2 → K),
      (rowSum (bdryMeshGroups ref r) fun row =>
        edgeFlux J u (boxPoints 2 [ax, ay] kind) (row.map fun k => r.vertices.getD k 0)) =
      (J 0 0 + J 1 1) * (2 * boxVolume [ax, ay]) := by
  have hb := box_rows (axes := [ax, ay]) h hinc
  have hno := C130_box (axes := [ax, ay]) h hinc
  obtain ⟨hrows, hsum⟩ := hb
  have hel := (C21_elements (axes := [ax, ay]) h).2
  have htwo := (C21_faces h).1
  obtain ⟨T, hT, _, hok, _, hg⟩ := generateBox_eq h
  have hwf := box_wf (nodeOf := nodeOf) (n := boxShape [ax.length, ay.length])
    (m := boxCellShape [ax.length, ay.length]) hok
  rw [← hg] at hwf
  have hshape : boxGShape 2 kind = .simplex 2 := by cases kind <;> first | rfl | exact absurd rfl hk
  have h6 : (boxFactor 2 kind : K) = 2 := by
    cases kind
    all_goals first | exact absurd rfl hk | simp [boxFactor, Nat.factorial]
  have hTs : T.fvi = [[0, 1], [2, 0], [1, 2]] ∧ ∀ sub ∈ T.subs, sub.length = 3 := by
    cases kind
    all_goals first | exact absurd rfl hk | (obtain rfl := Option.some.inj hT; exact ⟨rfl, by decide⟩)
  have hlen : ∀ row ∈ g.vertexIndices, row.length = 3 := by
    intro row hrow
    rw [hg] at hrow
    simp only [boxGroup, boxElements, List.mem_flatMap, List.mem_map] at hrow
    obtain ⟨c, _, sub, hs, rfl⟩ := hrow
    rw [List.length_map, hTs.2 sub hs]
  have hfvi : g.fvi = [[0, 1], [2, 0], [1, 2]] := by rw [hg]; exact hTs.1
  have htab : ∀ g' ∈ [g], g'.fvi = [[0, 1], [2, 0], [1, 2]] := by
    intro g' hg'
    rw [List.mem_singleton.1 hg', hfvi]
  simp only [List.length_cons, List.length_nil, Nat.zero_add, Nat.reduceAdd] at hrows hsum
  rw [hshape] at hrows hsum
  have hpos : ∀ g' ∈ [g], ∀ row ∈ g'.vertexIndices, row.length = 3 ∧
      ∃ o, elemOrient (boxPoints 2 [ax, ay] kind) (unitVerts (.simplex 2)) row = some o ∧ 0 < o := by
    intro g' hg' row hrow
    rw [List.mem_singleton.1 hg'] at hrow
    exact ⟨hlen row hrow, hrows row hrow⟩
  have H : BoundaryMade perFace un res (boxVertices [ax, ay] kind).length [g] aff0 dict btags r :=
    ⟨hwf, fun g' hg' => by rw [ElGroup.nfaces, htab g' hg']; decide,
      fun g' hg' row hrow v hv => by rw [List.mem_singleton.1 hg'] at hrow; exact (hel row hrow).2 v hv,
      htwo, h1, h2, h3, hmade⟩
  have hsep := C130_apart_plane (aff0 := aff0) (dict := dict) (btags := btags) hwf htab hpos hno
  refine ⟨C114_triangles H htab hpos hsep, fun J u => ?_⟩
  rw [← C114_divergence_plane H htab hpos hsep J u, ← h6, ← hsum]
  simp [rowSum, List.sum_map_mul_left]

/-! ## Moved meshes -/

omit [LinearOrder K] [IsStrictOrderedRing K] in
theorem affMap_apply_eq {d : Nat} (f : AffMap d K) (x : Fin d → K) (i : Fin d) :
    f.apply x i = (∑ j, f.matrix.getD 1 i j * x j) + f.offset.getD 0 i := by
  obtain ⟨G, o⟩ := f
  cases G <;> cases o <;> simp [AffMap.apply, Matrix.mulVec, dotProduct, Matrix.one_apply]

omit [LinearOrder K] [IsStrictOrderedRing K] in
theorem affMap_injective {d : Nat} {f : AffMap d K} (h : (f.matrix.getD 1).det ≠ 0) : Function.Injective f.apply := by
  intro x y hxy
  have h1 : (f.matrix.getD 1).mulVec x = (f.matrix.getD 1).mulVec y := by
    funext i
    have := congrFun hxy i
    rw [affMap_apply_eq, affMap_apply_eq] at this
    exact add_right_cancel this
  have hu : IsUnit (f.matrix.getD 1) := (Matrix.isUnit_iff_isUnit_det _).2 (isUnit_iff_ne_zero.2 h)
  exact Matrix.mulVec_injective_iff_isUnit.2 hu h1

omit [LinearOrder K] [IsStrictOrderedRing K] in
theorem combination_moved {d : Nat} (f : AffMap d K) {pts : List (Fin d → K)} (i : Fin d) (row : List Nat) (w : List K)
    (hl : w.length = row.length) (hv : ∀ v ∈ row, v < pts.length) :
    (List.zipWith (fun b v => b * (pts.map f.apply).getD v 0 i) w row).sum =
      (∑ j, f.matrix.getD 1 i j * (List.zipWith (fun b v => b * pts.getD v 0 j) w row).sum) +
        w.sum * f.offset.getD 0 i := by
  induction row generalizing w with
  | nil => obtain rfl := List.length_eq_zero_iff.1 hl; simp
  | cons v row ih =>
    match w, hl with
    | b :: w, hl =>
      have hlt := hv v List.mem_cons_self
      simp only [List.zipWith_cons_cons, List.sum_cons]
      rw [ih w (by simpa using hl) fun v' h' => hv v' (List.mem_cons_of_mem _ h')]
      have : (pts.map f.apply).getD v 0 i = f.apply (pts.getD v 0) i := by
        simp [List.getD_eq_getElem?_getD, List.getElem?_map, List.getElem?_eq_getElem hlt]
      rw [this, affMap_apply_eq]
      simp only [mul_add, Finset.sum_add_distrib, Finset.mul_sum]
      have e : ∀ j, b * (f.matrix.getD 1 i j * pts.getD v 0 j) = f.matrix.getD 1 i j * (b * pts.getD v 0 j) :=
        fun j => by ring
      simp only [e]
      ring

omit [IsStrictOrderedRing K] in
/-- C130: elements that do not overlap do not overlap after `affine_map` with an invertible matrix. -/
theorem C130_affine {d : Nat} {f : AffMap d K} {m m' : PMesh d K} (h : affineMapMesh f m = some m')
    (hdet : (f.matrix.getD 1).det ≠ 0) {pts : List (Fin d → K)} (hpts : m.vertices = some pts)
    (hval : ∀ g ∈ m.groups, ∀ row ∈ g.vertexIndices, ∀ v ∈ row, v < pts.length) (hno : NoOverlap m.groups pts) :
    ∃ pts', m'.vertices = some pts' ∧ NoOverlap m'.groups pts' := by
  have hm := (affine_cases f m).2 m' h
  have h1 : m'.vertices = some (pts.map f.apply) := by rw [hm]; simp [movePts, FMesh.transport, hpts]
  refine ⟨_, h1, ?_⟩
  intro g e g' e' grp grp' row row' w w' pt hg he hg' he' c1 hp c2
  have hgr : ∀ (k : Nat) grp, m'.groups[k]? = some grp → ∃ grp0, m.groups[k]? = some grp0 ∧
      grp0.vertexIndices = grp.vertexIndices := by
    intro k grp hk
    rw [hm] at hk
    simp only [movePts, FMesh.transport, List.getElem?_map, Option.map_eq_some_iff] at hk
    obtain ⟨grp0, h0, rfl⟩ := hk
    exact ⟨grp0, h0, rfl⟩
  obtain ⟨grp0, q1, q2⟩ := hgr g grp hg
  obtain ⟨grp0', q1', q2'⟩ := hgr g' grp' hg'
  rw [← q2] at he
  rw [← q2'] at he'
  have back : ∀ row w, (∀ v ∈ row, v < pts.length) → InElement (pts.map f.apply) row w pt →
      InElement pts row w (fun j => (List.zipWith (fun b v => b * pts.getD v 0 j) w row).sum) ∧
        f.apply (fun j => (List.zipWith (fun b v => b * pts.getD v 0 j) w row).sum) = pt := by
    rintro row w hv ⟨z1, z2, z3, z4⟩
    refine ⟨⟨z1, z2, z3, fun _ => rfl⟩, ?_⟩
    funext i
    rw [z4 i, combination_moved f i row w z1 hv, z3, one_mul, affMap_apply_eq]
  obtain ⟨b1, b2⟩ := back row w (hval _ (List.mem_of_getElem? q1) _ (List.mem_of_getElem? he)) c1
  obtain ⟨b3, b4⟩ := back row' w' (hval _ (List.mem_of_getElem? q1') _ (List.mem_of_getElem? he')) c2
  rw [affMap_injective hdet (b2.trans b4.symm)] at b1
  exact hno _ _ _ _ _ _ _ _ _ _ _ q1 he q1' he' b1 hp b3

end

/-- C130 fails for quadrilaterals: the faces of the reference square are not listed in one sense around it, so the
boundary mesh of a box of one quadrilateral is not consistently directed: two of its elements begin in the first corner, and
none ends there. -/
theorem C130_tensor_counterexample : ∃ g r, generateBox id [2, 2] .tensor = some g ∧
    makeFaceRestriction false (fun _ _ => ()) (fun _ f (n : List Nat) => (f, n)) (.tag .reallyAll)
      (boxVertices [[(0 : ℚ), 1], [0, 1]] .tensor).length [g] (computeFacial () [g] [] []) = some r ∧
    (((bdryMeshGroups (fun _ => (0, [[0], [1]])) r).flatMap ElGroup.vertexIndices).countP
      fun row => row.head? == some 0) = 2 ∧
    (((bdryMeshGroups (fun _ => (0, [[0], [1]])) r).flatMap ElGroup.vertexIndices).countP
      fun row => row.getLast? == some 0) = 0 := by
  obtain ⟨g, hg⟩ : ∃ g, generateBox id [2, 2] .tensor = some g := by
    rw [← Option.isSome_iff_exists]; decide +kernel
  have h : (generateBox id [2, 2] .tensor).bind (fun g => (makeFaceRestriction false (fun _ _ => ())
      (fun _ f (n : List Nat) => (f, n)) (.tag .reallyAll) (boxVertices [[(0 : ℚ), 1], [0, 1]] .tensor).length [g]
      (computeFacial () [g] [] [])).map fun r =>
        ((((bdryMeshGroups (fun _ => (0, [[0], [1]])) r).flatMap ElGroup.vertexIndices).countP
          fun row => row.head? == some 0),
        (((bdryMeshGroups (fun _ => (0, [[0], [1]])) r).flatMap ElGroup.vertexIndices).countP
          fun row => row.getLast? == some 0))) = some (2, 0) := by decide +kernel
  rw [hg, Option.bind_some, Option.map_eq_some_iff] at h
  obtain ⟨r, hr, he⟩ := h
  exact ⟨g, r, hg, hr, (Prod.mk.inj he).1, (Prod.mk.inj he).2⟩

/-! ## Examples -/

-- a box moved by a map with determinant 2
example : ∃ m' : PMesh 2 ℚ, affineMapMesh ⟨some !![2, 1; 0, 1], some ![3, 4]⟩
    ⟨2, some (boxPoints 2 [[0, 1], [0, 1]] .simplex),
      ((generateBox (fun _ => []) [2, 2] .simplex).toList : List (ElGroup (List (Fin 2 → ℚ)))),
      LazyMesh.make (fun x => x) true (some true) .missing .missing⟩ = some m' ∧ m'.groups.length = 1 := by
  refine ⟨_, rfl, ?_⟩
  decide +kernel

example : (!![2, 1; 0, 1] : Matrix (Fin 2) (Fin 2) ℚ).det ≠ 0 := by simp [Matrix.det_fin_two]

-- a box of two cells, of tetrahedra: volume 6, flux of (2x + y, 3y - z + 1, 5) six times 30
example : (∀ l ∈ [[(0 : ℚ), 1, 3], [0, 2], [0, 1]], l.Pairwise (· < ·)) ∧
    (generateBox id [3, 2, 2] .simplex).bind (fun g => (makeFaceRestriction false (fun _ _ => ()) (fun _ f n => (f, n))
      (.tag .reallyAll) (boxVertices [[(0 : ℚ), 1, 3], [0, 2], [0, 1]] .simplex).length [g]
      (computeFacial () [g] [] [])).map fun r =>
        rowSum (bdryMeshGroups (fun _ => (0, [[0, 1], [2, 0], [1, 2]])) r) fun row =>
          triangleFlux ![![2, 1, 0], ![0, 3, -1], ![0, 0, 0]] ![0, 1, 5]
            (boxPoints 3 [[(0 : ℚ), 1, 3], [0, 2], [0, 1]] .simplex) (row.map fun k => r.vertices.getD k 0)) = some 180 ∧
    boxVolume [[(0 : ℚ), 1, 3], [0, 2], [0, 1]] = 6 := by
  refine ⟨by decide +kernel, by decide +kernel, by decide +kernel⟩

-- an "X" box of two cells: area 6, flux of (2x + y, 3y - x + 1) twice 30
example : (∀ l ∈ [[(0 : ℚ), 1, 3], [0, 2]], l.Pairwise (· < ·)) ∧
    (generateBox id [3, 2] .crossed).bind (fun g => (makeFaceRestriction true (fun _ _ => ()) (fun _ f n => (f, n))
      (.tag .reallyAll) (boxVertices [[(0 : ℚ), 1, 3], [0, 2]] .crossed).length [g]
      (computeFacial () [g] [] [])).map fun r =>
        rowSum (bdryMeshGroups (fun _ => (0, [[0], [1]])) r) fun row =>
          edgeFlux ![![2, 1], ![-1, 3]] ![0, 1]
            (boxPoints 2 [[(0 : ℚ), 1, 3], [0, 2]] .crossed) (row.map fun k => r.vertices.getD k 0)) = some 60 := by
  refine ⟨by decide +kernel, by decide +kernel⟩

end Meshmode
