import Verif.Connection.Apart
import Verif.Mesh.OrientFollow

/-!
# Elements that do not overlap in parts, merged meshes and split meshes (C130)

`partition_mesh` (meshmode/mesh/processing.py:465-570), `merge_disjoint_meshes` (874-963), `split_mesh_groups`
(970-1027) and `remove_unused_vertices` (1565-1591), and elements that do not overlap.  No new code is modelled.
-/
namespace Meshmode

variable {N A K : Type} [Field K] [LinearOrder K] {d : Nat}

theorem inElement_congr {vs vs' : List (Fin d → K)} {row row' : List Nat} (h : row'.map (vs'[·]?) = row.map (vs[·]?))
    {w : List K} {pt : Fin d → K} (hin : InElement vs' row' w pt) : InElement vs row w pt := by
  obtain ⟨h1, h2, h3, h4⟩ := hin
  have hl : row'.length = row.length := by simpa using congrArg List.length h
  refine ⟨h1.trans hl, h2, h3, fun i => ?_⟩
  rw [h4 i]
  have e : ∀ (us : List (Fin d → K)) (rw' : List Nat), List.zipWith (fun b v => b * us.getD v 0 i) w rw' =
      List.zipWith (fun b (x : Option (Fin d → K)) => b * x.getD 0 i) w (rw'.map (us[·]?)) := by
    intro us rw'
    rw [List.zipWith_map_right]
    simp only [List.getD_eq_getElem?_getD]
  rw [e, e, h]

/-- C130: if the elements of a mesh do not overlap, those of each of its parts do not. -/
theorem C130_part {m : MMesh N (Fin d → K) A} {parts : Parts} (hids : (parts.map Prod.fst).Nodup)
    (hsorted : ∀ p ∈ parts, p.2.Pairwise (· < ·)) {pid : Nat} {pm : MMesh N (Fin d → K) A}
    (h : getMeshPart m parts pid = .ok pm) (hno : NoOverlap m.groups m.vertices) :
    NoOverlap pm.groups pm.vertices := by
  obtain ⟨sel, hsel, s1, s2, s3, s4⟩ := C09_part_elements hids hsorted h
  obtain ⟨pidx, sel2, required, hs⟩ := getMeshPart_ok h
  have hf := hs.filterSpec (hs.valid hids hsorted)
  have hnd : sel.Nodup := (hsorted _ hsel).imp fun hlt => Nat.ne_of_lt hlt
  have key : ∀ (G I : Nat) grp row, pm.groups[G]? = some grp → grp.vertexIndices[I]? = some row →
      ∃ E i e grp0 row0, IsGlobalNr pm.sizes G I E ∧ sel[E]? = some e ∧ IsGlobalNr m.sizes G i e ∧
        m.groups[G]? = some grp0 ∧ grp0.vertexIndices[i]? = some row0 ∧
        row.map (pm.vertices[·]?) = row0.map (m.vertices[·]?) := by
    intro G I grp row hG hI
    have hGl : G < m.groups.length := by rw [← s2]; exact (List.getElem?_eq_some_iff.1 hG).1
    obtain ⟨grp', a1, _, _, a3, _⟩ := hf.group G _ (List.getElem?_eq_getElem hGl)
    rw [hG] at a1
    obtain rfl := Option.some.inj a1
    have hlt : I < grp.nelements := by
      have := (List.getElem?_eq_some_iff.1 hI).1
      rw [a3] at this
      exact this
    have h3 : IsGlobalNr pm.sizes G I ((pm.sizes.take G).sum + I) :=
      ⟨grp.nelements, by simp [MMesh.sizes, List.getElem?_map, hG], hlt, rfl⟩
    have hE : (pm.sizes.take G).sum + I < sel.length := by
      rw [← s1]
      exact globalNr_size h3
    obtain ⟨g, i, i', grp0, grp', e1, e2, e3, e4, _⟩ := s4 _ _ (List.getElem?_eq_getElem hE)
    obtain ⟨rfl, rfl⟩ := globalNr_unique h3 e2
    obtain ⟨f1, _⟩ := C10_part_keeps_geometry hids hsorted h hsel
    obtain ⟨grp1, grp1', row0, row', d1, d2, d3, d4, d5, _⟩ := f1 G I i ⟨_, _, List.getElem?_eq_getElem hE, e2, e1⟩
    rw [hG] at d2
    obtain rfl := Option.some.inj d2
    rw [hI] at d4
    obtain rfl := Option.some.inj d4
    exact ⟨_, i, _, grp1, row0, h3, List.getElem?_eq_getElem hE, e1, d1, d3, d5⟩
  intro g e g' e' grp grp' row row' w w' pt hg he hg' he' c1 hp c2
  obtain ⟨E, i, x, grp0, row0, k1, k2, k3, k4, k5, k6⟩ := key g e grp row hg he
  obtain ⟨E', i', x', grp0', row0', k1', k2', k3', k4', k5', k6'⟩ := key g' e' grp' row' hg' he'
  obtain ⟨rfl, rfl⟩ := hno _ _ _ _ _ _ _ _ _ _ _ k4 k5 k4' k5' (inElement_congr k6 c1) hp (inElement_congr k6' c2)
  obtain ⟨_, _, _, q⟩ := k3
  obtain ⟨_, _, _, q'⟩ := k3'
  rw [← q'] at q
  subst q
  have hEE : E = E' := (List.getElem?_inj (List.getElem?_eq_some_iff.1 k2).1 hnd).1 (k2.trans k2'.symm)
  subst hEE
  exact globalNr_unique k1 k1'

/-- C130: after removing unused vertices the elements overlap if and only if they did before. -/
theorem C130_remove_unused {A' : Type} {m M : FMesh N (Fin d → K) A'} (h : removeUnused m = .ok M) :
    ∃ vs vs', m.vertices = some vs ∧ M.vertices = some vs' ∧ (NoOverlap M.groups vs' ↔ NoOverlap m.groups vs) := by
  obtain ⟨vs, vs', f, hv, hv', hf, _, hpt, _⟩ := C46_remove_unused h
  refine ⟨vs, vs', hv, hv', ?_⟩
  have hrow : ∀ g ∈ m.groups, ∀ row ∈ g.vertexIndices, (row.map f).map (vs'[·]?) = row.map (vs[·]?) := by
    intro g hg row hr
    rw [List.map_map]
    exact List.map_congr_left fun v hv => (hpt v ⟨g, hg, row, hr, hv⟩).2
  rw [hf]
  constructor
  · intro hno g e g' e' grp grp' row row' w w' pt hg he hg' he' c1 hp c2
    refine hno g e g' e' { grp with vertexIndices := grp.vertexIndices.map (·.map f) }
      { grp' with vertexIndices := grp'.vertexIndices.map (·.map f) } (row.map f) (row'.map f) w w' pt
      (by simp [mapVertexNrs, hg]) (by simp [he]) (by simp [mapVertexNrs, hg']) (by simp [he']) ?_ hp ?_
    · exact inElement_congr (hrow _ (List.mem_of_getElem? hg) _ (List.mem_of_getElem? he)).symm c1
    · exact inElement_congr (hrow _ (List.mem_of_getElem? hg') _ (List.mem_of_getElem? he')).symm c2
  · intro hno g e g' e' grp grp' row row' w w' pt hg he hg' he' c1 hp c2
    simp only [mapVertexNrs, List.getElem?_map, Option.map_eq_some_iff] at hg hg'
    obtain ⟨g0, hg0, rfl⟩ := hg
    obtain ⟨g0', hg0', rfl⟩ := hg'
    simp only [List.getElem?_map, Option.map_eq_some_iff] at he he'
    obtain ⟨r0, he0, rfl⟩ := he
    obtain ⟨r0', he0', rfl⟩ := he'
    exact hno _ _ _ _ _ _ _ _ _ _ _ hg0 he0 hg0' he0'
      (inElement_congr (hrow _ (List.mem_of_getElem? hg0) _ (List.mem_of_getElem? he0)) c1) hp
      (inElement_congr (hrow _ (List.mem_of_getElem? hg0') _ (List.mem_of_getElem? he0')) c2)

/-- C130: splitting groups does not make elements overlap. -/
theorem C130_split {A' : Type} {m M : FMesh N (Fin d → K) A'} (hwf : ∀ g ∈ m.groups, g.WF) {flags : List Int}
    {mp : List ((Nat × Int) × Nat)} (h : splitMeshGroups m flags = some (M, mp)) {vs : List (Fin d → K)}
    (hno : NoOverlap m.groups vs) : NoOverlap M.groups vs := by
  obtain ⟨c1, c2, c3, c4⟩ := C15_split_map_exact hwf h
  have key : ∀ (G I : Nat) grp' row, M.groups[G]? = some grp' → grp'.vertexIndices[I]? = some row →
      ∃ (g i e : Nat) (flag : Int) (idx : List Nat) (grp : ElGroup N), ((g, flag), G) ∈ mp ∧ IsGlobalNr (m.groups.map ElGroup.nelements) g i e ∧
        flags[e]? = some flag ∧ idx.Pairwise (· < ·) ∧ idx[I]? = some i ∧
        (∀ x, x ∈ idx ↔ ∃ e, IsGlobalNr (m.groups.map ElGroup.nelements) g x e ∧ flags[e]? = some flag) ∧
        m.groups[g]? = some grp ∧ grp.vertexIndices[i]? = some row := by
    intro G I grp' row hG hI
    have hGl : G ∈ mp.map Prod.snd := by
      rw [c2]
      exact List.mem_range.2 (List.getElem?_eq_some_iff.1 hG).1
    obtain ⟨⟨⟨g, flag⟩, G'⟩, hmem, rfl⟩ := List.mem_map.1 hGl
    obtain ⟨grp, new, idx, h1, h2, h3, _, h5, h6, h7, h8, h9⟩ := c4 _ _ _ hmem
    rw [hG] at h2
    obtain rfl := Option.some.inj h2
    have hIx : I < idx.length := by rw [← h8]; exact (List.getElem?_eq_some_iff.1 hI).1
    obtain ⟨e, he, hfe⟩ := (h6 idx[I]).1 (List.getElem_mem hIx)
    exact ⟨g, idx[I], e, flag, idx, grp, hmem, he, hfe, h5, List.getElem?_eq_getElem hIx, h6, h1,
      by rw [← (h9 _ _ (List.getElem?_eq_getElem hIx)).2]; exact hI⟩
  intro G I G' I' grp grp' row row' w w' pt hg he hg' he' x1 hp x2
  obtain ⟨g, i, e, fl, idx, g0, a1, a2, a3, a4, a5, a6, a7, a8⟩ := key G I grp row hg he
  obtain ⟨g', i', e', fl', idx', g0', b1, b2, b3, b4, b5, b6, b7, b8⟩ := key G' I' grp' row' hg' he'
  obtain ⟨rfl, rfl⟩ := hno _ _ _ _ _ _ _ _ _ _ _ a7 a8 b7 b8 x1 hp x2
  obtain rfl : e = e' := by
    obtain ⟨_, _, _, q⟩ := a2
    obtain ⟨_, _, _, q'⟩ := b2
    omega
  rw [a3] at b3
  obtain rfl := Option.some.inj b3
  have := List.inj_on_of_nodup_map c1 a1 b1 rfl
  simp only [Prod.mk.injEq, true_and] at this
  obtain rfl : idx = idx' := sorted_ext a4 b4 fun x => (a6 x).trans (b6 x).symm
  exact ⟨this, (List.getElem?_inj (List.getElem?_eq_some_iff.1 a5).1 (a4.imp fun q => Nat.ne_of_lt q)).1
    (a5.trans b5.symm)⟩

/-- C130: merging meshes which do not overlap, each without overlaps, gives a mesh without overlaps. -/
theorem C130_merge {A' : Type} {ms : List (FMesh N (Fin d → K) A')} (hok : ∀ m ∈ ms, ∃ vs, m.OK vs)
    (hgr : ∀ m ∈ ms, m.groups ≠ []) {single : Bool} {M : FMesh N (Fin d → K) A'} (h : mergeDisjoint ms single = .ok M)
    (hno : ∀ m ∈ ms, ∀ vs, m.vertices = some vs → NoOverlap m.groups vs)
    (hsep : ∀ (k k' : Nat) m m' vs vs', ms[k]? = some m → ms[k']? = some m' → m.vertices = some vs →
      m'.vertices = some vs' → ∀ g ∈ m.groups, ∀ g' ∈ m'.groups, ∀ row ∈ g.vertexIndices, ∀ row' ∈ g'.vertexIndices,
      ∀ w w' pt, InElement vs row w pt → (∀ b ∈ w, 0 < b) → InElement vs' row' w' pt → k = k') :
    ∃ VS, M.vertices = some VS ∧ NoOverlap M.groups VS := by
  obtain ⟨_, hk⟩ := merged_group_kinds hok hgr h
  obtain ⟨c1, c2, _, c4⟩ := C14_merge_elements hok h
  obtain ⟨vss, _, hverts, _⟩ := mergeDisjoint_ok h
  refine ⟨_, hverts, ?_⟩
  have key : ∀ (G I : Nat) grp' row', M.groups[G]? = some grp' → grp'.vertexIndices[I]? = some row' →
      ∃ E k e m vs g i grp row, IsGlobalNr (M.groups.map ElGroup.nelements) G I E ∧ MergedElem ms k e E ∧
        ms[k]? = some m ∧ m.vertices = some vs ∧ IsGlobalNr (m.groups.map ElGroup.nelements) g i e ∧
        m.groups[g]? = some grp ∧ grp.vertexIndices[i]? = some row ∧
        row'.map (vss.flatten[·]?) = row.map (vs[·]?) := by
    intro G I grp' row' h1 h2
    have hlt : I < grp'.nelements := by
      rw [← (hk grp' (List.mem_of_getElem? h1)).1]
      exact (List.getElem?_eq_some_iff.1 h2).1
    have h3 : IsGlobalNr (M.groups.map ElGroup.nelements) G I (((M.groups.map ElGroup.nelements).take G).sum + I) :=
      ⟨grp'.nelements, by simp [List.getElem?_map, h1], hlt, rfl⟩
    obtain ⟨k, e, hke⟩ := (c1 _).1 (globalNr_size h3)
    have hke' := hke
    obtain ⟨n, hn, hlt, _⟩ := hke'
    rw [List.getElem?_map, Option.map_eq_some_iff] at hn
    obtain ⟨m, hm, rfl⟩ := hn
    obtain ⟨vs, hvs⟩ := hok m (List.mem_of_getElem? hm)
    obtain ⟨g, i, hgi⟩ := (C01_numbering_bijective (m.groups.map ElGroup.nelements) e).1.1 hlt
    have hgi' := hgi
    obtain ⟨n, hn, _, _⟩ := hgi'
    rw [List.getElem?_map, Option.map_eq_some_iff] at hn
    obtain ⟨grp0, hg0, _⟩ := hn
    obtain ⟨G', I', grp'', vs', a1, a2, a3, a4, _, _, row0, row'', a5, a6, a7⟩ := c4 k m g i e _ grp0 vs hm hvs hg0 hgi hke
    obtain ⟨rfl, rfl⟩ := globalNr_unique h3 a1
    rw [h1] at a2
    obtain rfl := Option.some.inj a2
    rw [h2] at a6
    obtain rfl := Option.some.inj a6
    rw [hverts] at a3
    obtain rfl := Option.some.inj a3
    exact ⟨_, k, e, m, vs, g, i, grp0, row0, h3, hke, hm, hvs.vertices, hgi, hg0, a5, a7⟩
  intro G I G' I' grp grp' row row' w w' pt hg he hg' he' x1 hp x2
  obtain ⟨E, k, e, m, vs, g, i, g0, r0, a1, a2, a3, a4, a5, a6, a7, a8⟩ := key G I grp row hg he
  obtain ⟨E', k', e', m', vs', g', i', g0', r0', b1, b2, b3, b4, b5, b6, b7, b8⟩ := key G' I' grp' row' hg' he'
  have y1 := inElement_congr a8 x1
  have y2 := inElement_congr b8 x2
  obtain rfl := hsep k k' m m' vs vs' a3 b3 a4 b4 g0 (List.mem_of_getElem? a6) g0' (List.mem_of_getElem? b6) r0
    (List.mem_of_getElem? a7) r0' (List.mem_of_getElem? b7) w w' pt y1 hp y2
  rw [a3] at b3
  obtain rfl := Option.some.inj b3
  rw [a4] at b4
  obtain rfl := Option.some.inj b4
  obtain ⟨rfl, rfl⟩ := hno m (List.mem_of_getElem? a3) vs a4 _ _ _ _ _ _ _ _ _ _ _ a6 a7 b6 b7 y1 hp y2
  obtain rfl : e = e' := by
    obtain ⟨_, _, _, q⟩ := a5
    obtain ⟨_, _, _, q'⟩ := b5
    omega
  obtain rfl : E = E' := by
    obtain ⟨_, _, _, q⟩ := a2
    obtain ⟨_, _, _, q'⟩ := b2
    omega
  exact globalNr_unique a1 b1

omit [Field K] [LinearOrder K] in
theorem weights_of_perm {row row' : List Nat} (h : row.Perm row') : ∀ w : List K, w.length = row.length →
    ∃ w' : List K, w'.length = row'.length ∧ (w'.zip row').Perm (w.zip row) := by
  induction h with
  | nil => exact fun w hw => ⟨w, hw, .refl _⟩
  | cons v _ ih =>
    intro w hw
    match w, hw with
    | b :: w, hw =>
      obtain ⟨w', h1, h2⟩ := ih w (by simpa using hw)
      exact ⟨b :: w', by simp [h1], by simpa using h2⟩
  | swap u v l =>
    intro w hw
    match w, hw with
    | b :: c :: w, hw => exact ⟨c :: b :: w, by simpa using hw, by simpa using .swap _ _ _⟩
  | trans _ _ ih1 ih2 =>
    intro w hw
    obtain ⟨w1, a1, a2⟩ := ih1 w hw
    obtain ⟨w2, b1, b2⟩ := ih2 w1 a1
    exact ⟨w2, b1, b2.trans a2⟩

theorem inElement_perm {vs : List (Fin d → K)} {row row' : List Nat} (hr : row.Perm row') {w : List K} {pt : Fin d → K}
    (h : InElement vs row w pt) : ∃ w', InElement vs row' w' pt ∧ w'.Perm w := by
  obtain ⟨h1, h2, h3, h4⟩ := h
  obtain ⟨w', a1, a2⟩ := weights_of_perm hr w h1
  have hw : w'.Perm w := by
    have := a2.map Prod.fst
    rwa [List.map_fst_zip a1.le, List.map_fst_zip h1.le] at this
  refine ⟨w', ⟨a1, fun b hb => h2 b (hw.mem_iff.1 hb), by rw [hw.sum_eq, h3], fun i => ?_⟩, hw⟩
  rw [h4 i]
  have e : ∀ (w : List K) (row : List Nat), List.zipWith (fun b v => b * vs.getD v 0 i) w row =
      (w.zip row).map fun p => p.1 * vs.getD p.2 0 i := fun w row => by
    rw [List.zip, List.map_zipWith]
  rw [e, e]
  exact (a2.map _).sum_eq.symm

/-- C130: flipping elements does not make them overlap, nor does it remove an overlap. -/
theorem C130_flips {A' : Type} {shape : Nat → GShape} {nodeFlip : Nat → N → N} {flags : List Bool}
    {m M : FMesh N (Fin d → K) A'} (hok : ∀ g ∈ m.groups, FlipOK shape g)
    (h : performFlips shape nodeFlip flags m = .ok M) (vs : List (Fin d → K)) :
    NoOverlap M.groups vs ↔ NoOverlap m.groups vs := by
  obtain ⟨-, -, hlen, hg⟩ := C45_flags (fun g hg => (hok g hg).1) h
  have hrow : ∀ (g i : Nat) (grp : ElGroup N) (row : List Nat), m.groups[g]? = some grp →
      grp.vertexIndices[i]? = some row → ∃ (grp' : ElGroup N) (row' : List Nat), M.groups[g]? = some grp' ∧
        grp'.vertexIndices[i]? = some row' ∧ row'.Perm row := by
    intro g i grp row hgrp hr
    obtain ⟨grp', q1, -, -, -, -, q5⟩ := hg g grp hgrp
    have hk := hok grp (List.mem_of_getElem? hgrp)
    have hi : i < grp.nodes.length := by
      rw [← hk.1]; exact (List.getElem?_eq_some_iff.1 hr).1
    obtain ⟨row', nd', r1, -, r3⟩ := q5 i row _ hr (List.getElem?_eq_getElem hi)
    exact ⟨grp', row', q1, r1, C45_vertex_sets hk.2.1 (fun perm hp => hk.2.2 perm hp row (List.mem_of_getElem? hr)) r3⟩
  have hfrom : ∀ (g i : Nat) (grp' : ElGroup N) (row' : List Nat), M.groups[g]? = some grp' →
      grp'.vertexIndices[i]? = some row' → ∃ (grp : ElGroup N) (row : List Nat), m.groups[g]? = some grp ∧
        grp.vertexIndices[i]? = some row ∧ row'.Perm row := by
    intro g i grp' row' h1 h2
    have hgl : g < m.groups.length := hlen ▸ (List.getElem?_eq_some_iff.1 h1).1
    have hgrp := List.getElem?_eq_getElem hgl
    obtain ⟨G', q1, -, -, -, q4, -⟩ := hg g _ hgrp
    rw [h1] at q1
    cases q1
    have hil : i < m.groups[g].vertexIndices.length := q4 ▸ (List.getElem?_eq_some_iff.1 h2).1
    have hr := List.getElem?_eq_getElem hil
    obtain ⟨G', r', q1, q2, q3⟩ := hrow g i _ _ hgrp hr
    rw [h1] at q1
    cases q1
    rw [h2] at q2
    cases q2
    exact ⟨_, _, hgrp, hr, q3⟩
  constructor
  · intro hno g e g' e' grp grp' row row' w w' pt a1 a2 b1 b2 c1 hp c2
    obtain ⟨G, R, p1, p2, p3⟩ := hrow g e grp row a1 a2
    obtain ⟨G', R', q1, q2, q3⟩ := hrow g' e' grp' row' b1 b2
    obtain ⟨u, x1, x2⟩ := inElement_perm p3.symm c1
    obtain ⟨u', y1, _⟩ := inElement_perm q3.symm c2
    exact hno _ _ _ _ _ _ _ _ _ _ _ p1 p2 q1 q2 x1 (fun b hb => hp b (x2.mem_iff.1 hb)) y1
  · intro hno g e g' e' grp grp' row row' w w' pt a1 a2 b1 b2 c1 hp c2
    obtain ⟨G, R, p1, p2, p3⟩ := hfrom g e grp row a1 a2
    obtain ⟨G', R', q1, q2, q3⟩ := hfrom g' e' grp' row' b1 b2
    obtain ⟨u, x1, x2⟩ := inElement_perm p3 c1
    obtain ⟨u', y1, _⟩ := inElement_perm q3 c2
    exact hno _ _ _ _ _ _ _ _ _ _ _ p1 p2 q1 q2 x1 (fun b hb => hp b (x2.mem_iff.1 hb)) y1

theorem forced_mesh [IsStrictOrderedRing K] {A' : Type} {nodeFlip : Nat → N → N} {vs : List (Fin d → K)}
    {m : FMesh N (Fin d → K) A'} (hd : 1 ≤ d) (hd3 : d ≤ 3) (hm : AffineMesh (fun _ => .simplex d) vs m) :
    ∃ M, forcePositive (fun _ => .simplex d) nodeFlip m = .ok M ∧ M.vertices = some vs ∧
      (∀ g ∈ M.groups, (∃ g0 ∈ m.groups, g.fvi = g0.fvi) ∧ ∀ row ∈ g.vertexIndices,
        row.length = (unitVerts (.simplex d)).length ∧ ∃ o, elemOrient vs (unitVerts (.simplex d)) row = some o ∧ 0 < o) ∧
      (rowSum M.groups fun row => (elemOrient vs (unitVerts (.simplex d)) row).getD 0) =
        (rowSum m.groups fun row => |(elemOrient vs (unitVerts (.simplex d)) row).getD 0|) ∧
      (NoOverlap m.groups vs → NoOverlap M.groups vs) := by
  obtain ⟨M, hM, h1, _, h3, h4⟩ := C55_force_positive_partial (nodeFlip := nodeFlip) hd hd3 hm
  have hback : ∀ (g : Nat) grp', M.groups[g]? = some grp' → ∃ grp, m.groups[g]? = some grp := fun g grp' hg =>
    ⟨_, List.getElem?_eq_getElem (h3 ▸ (List.getElem?_eq_some_iff.1 hg).1)⟩
  have hrow : ∀ (g e : Nat) grp row, m.groups[g]? = some grp → grp.vertexIndices[e]? = some row →
      ∃ grp' row' o, M.groups[g]? = some grp' ∧ grp'.vertexIndices[e]? = some row' ∧
        row'.length = (unitVerts (.simplex d)).length ∧
        elemOrient vs (unitVerts (.simplex d)) row' = some o ∧ 0 < o ∧
        o = |(elemOrient vs (unitVerts (.simplex d)) row).getD 0| := by
    intro g e grp row hg he
    have hmem := List.mem_of_getElem? hg
    obtain ⟨grp', a1, a2, a3, a4, a5, a6⟩ := h4 g grp hg
    have hlt : e < grp.nodes.length := by rw [← hm.rows grp hmem]; exact (List.getElem?_eq_some_iff.1 he).1
    obtain ⟨B, b, hB, hdet⟩ := hm.affine grp hmem row (List.mem_of_getElem? he)
    obtain ⟨row', nd', B', b', c1, c2, c3, c4, c5, c6, c7⟩ := a6 e row _ B b he (List.getElem?_eq_getElem hlt) hB
    obtain ⟨o', q1, q2, _⟩ := C55_orientation_exact hd hd3 (hm.corners grp hmem) c3
    obtain ⟨o, p1, p2, p3⟩ := C55_orientation_exact hd hd3 (hm.corners grp hmem) hB
    refine ⟨grp', row', o', a1, c1, c3.1, q1, q2.2 c4, ?_⟩
    rcases lt_or_gt_of_ne hdet with hneg | hpos
    · obtain ⟨_, perm, hp, rfl⟩ := c7 hneg
      obtain ⟨o2, r1, r2⟩ := C55_flip_reverses (hm.corners grp hmem) hp hB
      rw [p1] at r1
      obtain rfl := Option.some.inj r1
      rw [q1] at r2
      rw [p1, Option.getD_some, abs_of_neg (p3.2 hneg)]
      exact Option.some.inj r2
    · obtain ⟨rfl, _⟩ := c6 hpos
      rw [q1] at p1
      obtain rfl := Option.some.inj p1
      rw [q1, Option.getD_some, abs_of_pos (q2.2 c4)]
  refine ⟨M, hM, h1, ?_, ?_, ?_⟩
  · intro g hg
    obtain ⟨G, hG⟩ := List.mem_iff_getElem?.1 hg
    obtain ⟨grp, hgrp⟩ := hback G g hG
    obtain ⟨g', a1, a2, a3, a4, a5, _⟩ := h4 G grp hgrp
    rw [hG] at a1
    obtain rfl := Option.some.inj a1
    refine ⟨⟨grp, List.mem_of_getElem? hgrp, a3⟩, fun row hr => ?_⟩
    obtain ⟨e, he⟩ := List.mem_iff_getElem?.1 hr
    have hlt : e < grp.vertexIndices.length := a5 ▸ (List.getElem?_eq_some_iff.1 he).1
    obtain ⟨g', row', o, b1, b2, b3, b4, b5, _⟩ := hrow G e grp _ hgrp (List.getElem?_eq_getElem hlt)
    rw [hG] at b1
    obtain rfl := Option.some.inj b1
    rw [he] at b2
    obtain rfl := Option.some.inj b2
    exact ⟨b3, o, b4, b5⟩
  · unfold rowSum
    congr 1
    refine List.ext_getElem (by simp [h3]) fun G x1 x2 => ?_
    rw [List.length_map] at x1 x2
    rw [List.getElem_map, List.getElem_map]
    obtain ⟨g', a1, _, _, _, a5, _⟩ := h4 G _ (List.getElem?_eq_getElem x2)
    obtain rfl : M.groups[G] = g' := by rw [List.getElem?_eq_getElem x1] at a1; exact Option.some.inj a1
    congr 1
    refine List.ext_getElem (by simp [a5]) fun e y1 y2 => ?_
    rw [List.length_map] at y1 y2
    rw [List.getElem_map, List.getElem_map]
    obtain ⟨g', row', o, b1, b2, _, b4, _, b6⟩ := hrow G e _ _ (List.getElem?_eq_getElem x2) (List.getElem?_eq_getElem y2)
    rw [a1] at b1
    obtain rfl := Option.some.inj b1
    rw [List.getElem?_eq_getElem y1] at b2
    obtain rfl := Option.some.inj b2
    rw [b4, Option.getD_some, b6]
  · intro hno
    have hM' := hM
    unfold forcePositive at hM'
    split at hM'
    · simp at hM'
    · split at hM'
      · simp at hM'
      · rename_i M' hf
        split at hM'
        · simp at hM'
        · split at hM'
          · rw [Except.ok.injEq] at hM'
            subst hM'
            refine (C130_flips (fun g hg => ⟨hm.rows g hg, (hm.corners g hg).ok, fun perm hp row hr => ?_⟩) hf vs).2 hno
            obtain ⟨B, b, hB, _⟩ := hm.affine g hg row hr
            rw [hB.1, (flip_affine (K := K) (hm.corners g hg) hp).1]
          · simp at hM'

/-- C130: tetrahedra without overlaps, oriented in any way, are given a positive orientation by `make_mesh` with
`force_positive_orientation`; then the boundary mesh encloses them: the flux of an affine field is its divergence times
the sum of the absolute volumes of the tetrahedra before (times six). -/
theorem C130_forced [IsStrictOrderedRing K] {A' M' U : Type} {nodeFlip : Nat → N → N} {vs : List (Fin 3 → K)}
    {m : FMesh N (Fin 3 → K) A'} (hm : AffineMesh (fun _ => .simplex 3) vs m)
    (htab : ∀ g ∈ m.groups, g.fvi = [[0, 2, 1], [0, 1, 3], [0, 3, 2], [1, 2, 3]]) (hno : NoOverlap m.groups vs) :
    ∃ M, forcePositive (fun _ => .simplex 3) nodeFlip m = .ok M ∧
      ∀ {perFace : Bool} {un : Nat → Nat → U} {res : Nat → Nat → N → M'} {nv : Nat} {aff0 : A}
        {dict : List (List Nat × List BTag)} {btags : List BTag} {r : FaceRestr M' U} {ref : Nat → Nat × List (List Nat)},
        BoundaryMade perFace un res nv M.groups aff0 dict btags r → ∀ (J : Fin 3 → Fin 3 → K) (u : Fin 3 → K),
        (rowSum (bdryMeshGroups ref r) fun row => triangleFlux J u vs (row.map fun k => r.vertices.getD k 0)) =
          (J 0 0 + J 1 1 + J 2 2) *
            rowSum m.groups fun row => |(elemOrient vs (unitVerts (.simplex 3)) row).getD 0| := by
  obtain ⟨M, hM, _, h2, h3, h4⟩ := forced_mesh (nodeFlip := nodeFlip) (by omega) (by omega) hm
  refine ⟨M, hM, ?_⟩
  intro perFace un res nv aff0 dict btags r ref H J u
  have htab' : ∀ g ∈ M.groups, g.fvi = [[0, 2, 1], [0, 1, 3], [0, 3, 2], [1, 2, 3]] := fun g hg => by
    obtain ⟨⟨g0, a, b⟩, _⟩ := h2 g hg
    rw [b, htab g0 a]
  have hpos : ∀ g ∈ M.groups, ∀ row ∈ g.vertexIndices, row.length = 4 ∧
      ∃ o, elemOrient vs (unitVerts (.simplex 3)) row = some o ∧ 0 < o := fun g hg row hr => by
    obtain ⟨a, b⟩ := (h2 g hg).2 row hr
    exact ⟨a.trans (by decide), b⟩
  rw [← C114_divergence (ref := ref) H htab' hpos (fun F F' a b c p p' => C130_apart H.wf htab' hpos (h4 hno) F F' a b c p p')
    J u, ← h3]
  unfold rowSum
  rw [← List.sum_map_mul_left]
  simp only [List.sum_map_mul_left]

/-- C130: the same for triangles in the plane. -/
theorem C130_forced_plane [IsStrictOrderedRing K] {A' M' U : Type} {nodeFlip : Nat → N → N} {vs : List (Fin 2 → K)}
    {m : FMesh N (Fin 2 → K) A'} (hm : AffineMesh (fun _ => .simplex 2) vs m)
    (htab : ∀ g ∈ m.groups, g.fvi = [[0, 1], [2, 0], [1, 2]]) (hno : NoOverlap m.groups vs) :
    ∃ M, forcePositive (fun _ => .simplex 2) nodeFlip m = .ok M ∧
      ∀ {perFace : Bool} {un : Nat → Nat → U} {res : Nat → Nat → N → M'} {nv : Nat} {aff0 : A}
        {dict : List (List Nat × List BTag)} {btags : List BTag} {r : FaceRestr M' U} {ref : Nat → Nat × List (List Nat)},
        BoundaryMade perFace un res nv M.groups aff0 dict btags r → ∀ (J : Fin 2 → Fin 2 → K) (u : Fin 2 → K),
        (rowSum (bdryMeshGroups ref r) fun row => edgeFlux J u vs (row.map fun k => r.vertices.getD k 0)) =
          (J 0 0 + J 1 1) * rowSum m.groups fun row => |(elemOrient vs (unitVerts (.simplex 2)) row).getD 0| := by
  obtain ⟨M, hM, _, h2, h3, h4⟩ := forced_mesh (nodeFlip := nodeFlip) (by omega) (by omega) hm
  refine ⟨M, hM, ?_⟩
  intro perFace un res nv aff0 dict btags r ref H J u
  have htab' : ∀ g ∈ M.groups, g.fvi = [[0, 1], [2, 0], [1, 2]] := fun g hg => by
    obtain ⟨⟨g0, a, b⟩, _⟩ := h2 g hg
    rw [b, htab g0 a]
  have hpos : ∀ g ∈ M.groups, ∀ row ∈ g.vertexIndices, row.length = 3 ∧
      ∃ o, elemOrient vs (unitVerts (.simplex 2)) row = some o ∧ 0 < o := fun g hg row hr => by
    obtain ⟨a, b⟩ := (h2 g hg).2 row hr
    exact ⟨a.trans (by decide), b⟩
  rw [← C114_divergence_plane (ref := ref) H htab' hpos
    (fun F F' a b p p' => C130_apart_plane H.wf htab' hpos (h4 hno) F F' a b p p') J u, ← h3]
  unfold rowSum
  rw [← List.sum_map_mul_left]
  simp only [List.sum_map_mul_left]

/-! ## Example -/

/-- A box of four triangles, cut in two. (Example, no code.) -/
def exBoxCut : MMesh (List Nat) (Fin 2 → ℚ) Unit :=
  ⟨boxPoints 2 [[0, 1, 3], [0, 2]] .simplex, (generateBox id [3, 2] .simplex).toList, [[]]⟩

example : NoOverlap exBoxCut.groups exBoxCut.vertices := by
  obtain ⟨g, hg⟩ : ∃ g, generateBox id [3, 2] .simplex = some g := by
    rw [← Option.isSome_iff_exists]; decide +kernel
  have h := C130_box (axes := [[(0 : ℚ), 1, 3], [0, 2]]) (kind := .simplex) (nodeOf := id) hg (by decide +kernel)
  unfold exBoxCut
  rw [hg]
  exact h

example : ([(0, [0, 3]), (1, [1, 2])] : Parts).map Prod.fst = [0, 1] ∧
    (match getMeshPart exBoxCut [(0, [0, 3]), (1, [1, 2])] 1 with
      | .ok pm => pm.groups.map ElGroup.vertexIndices
      | .error _ => []) = [[[2, 0, 1], [1, 3, 2]]] := by
  decide +kernel

/-- A box of four triangles between the given coordinates. (Example, no code.) -/
def exBoxAt (x : List ℚ) : FMesh (List Nat) (Fin 2 → ℚ) Unit :=
  ⟨2, some (boxPoints 2 [x, [0, 2]] .simplex), (generateBox id [3, 2] .simplex).toList,
    ⟨some true, .missing, .data []⟩⟩

theorem exBoxAt_apart {a b c : ℚ} (hab : a < b) (hbc : b < c) :
    NoOverlap (exBoxAt [a, b, c]).groups (boxPoints 2 [[a, b, c], [0, 2]] .simplex) := by
  obtain ⟨g, hg⟩ : ∃ g, generateBox id [3, 2] .simplex = some g := by
    rw [← Option.isSome_iff_exists]; decide +kernel
  have h := C130_box (axes := [[a, b, c], [0, 2]]) (kind := .simplex) (nodeOf := id) hg (by
    intro l hl
    simp only [List.mem_cons, List.not_mem_nil, or_false] at hl
    rcases hl with rfl | rfl
    · simp [hab, hbc, hab.trans hbc]
    · simp)
  unfold exBoxAt
  rw [hg]
  exact h

theorem inElement_bounds {vs : List (Fin d → ℚ)} {row : List Nat} {w : List ℚ} {pt : Fin d → ℚ} {i : Fin d} {l u : ℚ}
    (h : InElement vs row w pt) (hb : ∀ v ∈ row, l ≤ vs.getD v 0 i ∧ vs.getD v 0 i ≤ u) : l ≤ pt i ∧ pt i ≤ u := by
  obtain ⟨h1, h2, h3, h4⟩ := h
  have key : ∀ (w : List ℚ) (row : List Nat), w.length = row.length → (∀ b ∈ w, 0 ≤ b) →
      (∀ v ∈ row, l ≤ vs.getD v 0 i ∧ vs.getD v 0 i ≤ u) →
      l * w.sum ≤ (List.zipWith (fun b v => b * vs.getD v 0 i) w row).sum ∧
        (List.zipWith (fun b v => b * vs.getD v 0 i) w row).sum ≤ u * w.sum := by
    intro w
    induction w with
    | nil => intro row _ _ _; simp
    | cons b w ih =>
      intro row hl h0 hv
      match row, hl with
      | v :: row, hl =>
        obtain ⟨q1, q2⟩ := ih row (by simpa using hl) (fun b hb => h0 b (List.mem_cons_of_mem _ hb))
          fun v hv' => hv v (List.mem_cons_of_mem _ hv')
        obtain ⟨p1, p2⟩ := hv v List.mem_cons_self
        have hb0 := h0 b List.mem_cons_self
        have m1 := mul_le_mul_of_nonneg_left p1 hb0
        have m2 := mul_le_mul_of_nonneg_left p2 hb0
        simp only [List.zipWith_cons_cons, List.sum_cons]
        constructor <;> linarith [mul_comm b l, mul_comm b u, mul_add l b w.sum, mul_add u b w.sum]
  have := key w row h1 h2 hb
  rw [h3, ← h4 i, mul_one, mul_one] at this
  exact this

/-- Two boxes side by side, with a gap: the hypotheses of `C130_merge`. -/
example : (mergeDisjoint [exBoxAt [0, 1, 3], exBoxAt [4, 5, 7]] true).toBool = true ∧
    (∀ m ∈ [exBoxAt [0, 1, 3], exBoxAt [4, 5, 7]], (∃ vs, m.OK vs) ∧ m.groups ≠ [] ∧
      ∀ vs, m.vertices = some vs → NoOverlap m.groups vs) ∧
    ∀ (k k' : Nat) m m' vs vs', [exBoxAt [0, 1, 3], exBoxAt [4, 5, 7]][k]? = some m →
      [exBoxAt [0, 1, 3], exBoxAt [4, 5, 7]][k']? = some m' → m.vertices = some vs →
      m'.vertices = some vs' → ∀ g ∈ m.groups, ∀ g' ∈ m'.groups, ∀ row ∈ g.vertexIndices, ∀ row' ∈ g'.vertexIndices,
      ∀ w w' pt, InElement vs row w pt → (∀ b ∈ w, 0 < b) → InElement vs' row' w' pt → k = k' := by
  refine ⟨by decide +kernel, ?_, ?_⟩
  · intro m hm
    simp only [List.mem_cons, List.not_mem_nil, or_false] at hm
    rcases hm with rfl | rfl
    · refine ⟨⟨_, rfl, by unfold ElGroup.WF; decide +kernel, by decide +kernel, by decide +kernel⟩, by decide +kernel,
        fun vs hvs => ?_⟩
      obtain rfl := Option.some.inj hvs
      exact exBoxAt_apart (by norm_num) (by norm_num)
    · refine ⟨⟨_, rfl, by unfold ElGroup.WF; decide +kernel, by decide +kernel, by decide +kernel⟩, by decide +kernel,
        fun vs hvs => ?_⟩
      obtain rfl := Option.some.inj hvs
      exact exBoxAt_apart (by norm_num) (by norm_num)
  · have hA : ∀ g ∈ (exBoxAt [0, 1, 3]).groups, ∀ row ∈ g.vertexIndices, ∀ v ∈ row,
        0 ≤ (boxPoints 2 [[0, 1, 3], [0, 2]] .simplex : List (Fin 2 → ℚ)).getD v 0 0 ∧
        (boxPoints 2 [[0, 1, 3], [0, 2]] .simplex : List (Fin 2 → ℚ)).getD v 0 0 ≤ 3 := by decide +kernel
    have hB : ∀ g ∈ (exBoxAt [4, 5, 7]).groups, ∀ row ∈ g.vertexIndices, ∀ v ∈ row,
        4 ≤ (boxPoints 2 [[4, 5, 7], [0, 2]] .simplex : List (Fin 2 → ℚ)).getD v 0 0 ∧
        (boxPoints 2 [[4, 5, 7], [0, 2]] .simplex : List (Fin 2 → ℚ)).getD v 0 0 ≤ 7 := by decide +kernel
    intro k k' m m' vs vs' hk hk' hv hv' g hg g' hg' row hr row' hr' w w' pt x1 _ x2
    match k, k', hk, hk' with
    | 0, 0, _, _ => rfl
    | 1, 1, _, _ => rfl
    | 0, 1, hk, hk' =>
      obtain rfl := Option.some.inj hk
      obtain rfl := Option.some.inj hk'
      obtain rfl := Option.some.inj hv
      obtain rfl := Option.some.inj hv'
      have := inElement_bounds x1 (hA g hg row hr)
      have := inElement_bounds x2 (hB g' hg' row' hr')
      linarith
    | 1, 0, hk, hk' =>
      obtain rfl := Option.some.inj hk
      obtain rfl := Option.some.inj hk'
      obtain rfl := Option.some.inj hv
      obtain rfl := Option.some.inj hv'
      have := inElement_bounds x1 (hB g hg row hr)
      have := inElement_bounds x2 (hA g' hg' row' hr')
      linarith
    | 0, k' + 2, _, hk' => simp at hk'
    | 1, k' + 2, _, hk' => simp at hk'
    | k + 2, _, hk, _ => simp at hk

example : (splitMeshGroups (exBoxAt [0, 1, 3]) [7, 4, 4, 7]).isSome = true ∧
    (removeUnused (exBoxAt [0, 1, 3])).toBool = true := by
  decide +kernel

example : (∀ g ∈ (exBoxAt [0, 1, 3]).groups, FlipOK (fun _ => .simplex 2) g) ∧
    (performFlips (fun _ => .simplex 2) (fun _ => id) [true, false, false, true] (exBoxAt [0, 1, 3])).toBool = true := by
  refine ⟨fun g hg => ⟨?_, ?_, fun perm hp => ?_⟩, by decide +kernel⟩
  · revert g
    decide +kernel
  · simp [GShape.OK]
  · obtain rfl : perm = [1, 0, 2] := by
      have : flipPermutation (.simplex 2) = .ok [1, 0, 2] := by decide +kernel
      rw [this] at hp
      exact (Except.ok.inj hp).symm
    revert g
    decide +kernel

theorem affineMesh_of {A' : Type} {vs : List (Fin d → ℚ)} {m : FMesh N (Fin d → ℚ) A'} (hd : 1 ≤ d) (hd3 : d ≤ 3)
    (h1 : m.vertices = some vs) (h2 : m.groups ≠ []) (h3 : ∀ g ∈ m.groups, g.vertexIndices.length = g.nodes.length)
    (h4 : ∀ g ∈ m.groups, ∀ row ∈ g.vertexIndices, row.length = d + 1 ∧ (∀ v ∈ row, v < vs.length) ∧
      (elemOrient vs (unitVerts (.simplex d)) row).getD 0 ≠ 0) : AffineMesh (fun _ => .simplex d) vs m where
  vertices := h1
  groups := h2
  rows := h3
  corners := fun _ _ => simplex_corners d
  flips := fun _ _ => by
    match d, hd, hd3 with
    | 1, _, _ => exact ⟨_, rfl⟩
    | 2, _, _ => exact ⟨_, rfl⟩
    | 3, _, _ => exact ⟨_, rfl⟩
  affine := fun g hg row hrow => by
    obtain ⟨a1, a2, a3⟩ := h4 g hg row hrow
    obtain ⟨B, b, hB⟩ := simplex_affine (K := ℚ) (by norm_num) a1 a2
    obtain ⟨o, b1, b2, b3⟩ := C55_orientation_exact hd hd3 (simplex_corners d) hB
    rw [b1, Option.getD_some] at a3
    refine ⟨B, b, hB, fun h0 => ?_⟩
    rw [h0] at b2 b3
    rcases lt_or_gt_of_ne a3 with h | h
    · exact absurd (b3.1 h) (lt_irrefl _)
    · exact absurd (b2.1 h) (lt_irrefl _)

/-- The box of four triangles with two of them flipped. (Example, no code.) -/
def exBoxMixed : FMesh (List Nat) (Fin 2 → ℚ) Unit :=
  match performFlips (fun _ => .simplex 2) (fun _ => id) [true, false, false, true] (exBoxAt [0, 1, 3]) with
  | .ok M => M
  | .error _ => exBoxAt []

example : AffineMesh (fun _ => .simplex 2) (boxPoints 2 [[0, 1, 3], [0, 2]] .simplex) exBoxMixed ∧
    (∀ g ∈ exBoxMixed.groups, g.fvi = [[0, 1], [2, 0], [1, 2]]) ∧
    exBoxMixed.groups.map ElGroup.vertexIndices = [[[2, 0, 1], [3, 1, 2], [2, 4, 3], [3, 5, 4]]] :=
  ⟨affineMesh_of (by omega) (by omega) rfl (by decide +kernel) (by decide +kernel) (by decide +kernel),
    by decide +kernel, by decide +kernel⟩

/-- A cube of six tetrahedra with two of them flipped. (Example, no code.) -/
def exCubeMixed : FMesh (List Nat) (Fin 3 → ℚ) Unit :=
  match performFlips (fun _ => .simplex 3) (fun _ => id) [true, false, false, true, false, false]
    (⟨3, some (boxPoints 3 [[0, 1], [0, 1], [0, 2]] .simplex), (generateBox id [2, 2, 2] .simplex).toList,
      ⟨some true, .missing, .data []⟩⟩ : FMesh (List Nat) (Fin 3 → ℚ) Unit) with
  | .ok M => M
  | .error _ => ⟨3, none, [], ⟨some true, .missing, .data []⟩⟩

example : AffineMesh (fun _ => .simplex 3) (boxPoints 3 [[0, 1], [0, 1], [0, 2]] .simplex) exCubeMixed ∧
    (∀ g ∈ exCubeMixed.groups, g.fvi = [[0, 2, 1], [0, 1, 3], [0, 3, 2], [1, 2, 3]]) ∧
    (exCubeMixed.groups.map ElGroup.nelements) = [6] :=
  ⟨affineMesh_of (by omega) (by omega) (by decide +kernel) (by decide +kernel) (by decide +kernel) (by decide +kernel),
    by decide +kernel, by decide +kernel⟩

/-- The first has no overlaps, since the box has none. -/
example : NoOverlap exBoxMixed.groups (boxPoints 2 [[0, 1, 3], [0, 2]] .simplex : List (Fin 2 → ℚ)) := by
  obtain ⟨M, hM⟩ : ∃ M, performFlips (fun _ => .simplex 2) (fun _ => id) [true, false, false, true]
      (exBoxAt [0, 1, 3]) = .ok M := ⟨_, rfl⟩
  have : exBoxMixed = M := by unfold exBoxMixed; rw [hM]
  rw [this]
  refine (C130_flips (fun g hg => ⟨?_, ?_, fun perm hp => ?_⟩) hM _).2 (exBoxAt_apart (by norm_num) (by norm_num))
  · revert g
    decide +kernel
  · simp [GShape.OK]
  · obtain rfl : perm = [1, 0, 2] := by
      have : flipPermutation (.simplex 2) = .ok [1, 0, 2] := by decide +kernel
      rw [this] at hp
      exact (Except.ok.inj hp).symm
    revert g
    decide +kernel

end Meshmode
