import Verif.Mesh.Glue

/-!
# When boundaries can be glued (C16)

`_match_boundary_faces` (meshmode/mesh/processing.py:1103-1201) raises nothing, and finds the partner
of each face, when there is one.
-/
namespace Meshmode

variable {N P A T : Type}

/-- `find_point_to_point_mapping` finds an answer when there is a close target point (compare C44).
(Specification or proof vocabulary, no code.) -/
def P2PComplete (p2p : A → T → List P → List P → List (Option Nat))
    (close : A → T → P → P → Prop) : Prop :=
  ∀ a t src tgt, ∀ (i : Nat) p, src[i]? = some p → (∃ q ∈ tgt, close a t p q) →
    ∃ j, (p2p a t src tgt)[i]? = some (some j)

/-- `f'` is where `bp` takes `f`: the vertices of `f` are mapped, one to one, close to those of `f'`.
(Specification or proof vocabulary, no code.) -/
def MapsToFace (close : A → T → P → P → Prop) (vertices : List P) (groups : List (ElGroup N))
    (bp : BdryPair A T) (f f' : FaceId) : Prop :=
  ∃ vs ws vs', faceVerts groups f = some vs ∧ faceVerts groups f' = some vs' ∧ ws.Perm vs' ∧
    List.Forall₂ (CloseVertices close vertices bp) vs ws

theorem mapM_isSome_iff {α β : Type} {f : α → Option β} {l : List α} :
    (∃ r, l.mapM f = some r) ↔ ∀ a ∈ l, (f a).isSome := by
  induction l with
  | nil => simp
  | cons a l ih =>
    rw [List.mapM_cons]
    cases ha : f a with
    | none => simp [ha]
    | some b =>
      simp only [Option.bind_eq_bind, Option.bind_some, List.mem_cons, forall_eq_or_imp, ha,
        Option.isSome_some, true_and, ← ih]
      constructor
      · rintro ⟨r, hr⟩
        obtain ⟨r', hr', _⟩ := Option.bind_eq_some_iff.1 hr
        exact ⟨r', hr'⟩
      · rintro ⟨r, hr⟩
        exact ⟨b :: r, by rw [hr]; rfl⟩

/-- C16: `_match_boundary_faces` succeeds if the tags are present, each group has equally many faces
of each boundary (which is the case for a single group), the boundaries have the same number of faces,
each face of the first boundary is mapped to a face of the second, and the vertices are far enough from
each other to tell which is mapped to which. -/
theorem C16_match_defined {p2p : A → T → List P → List P → List (Option Nat)}
    {close : A → T → P → P → Prop} (hp2p : P2PSound p2p close) (hcomp : P2PComplete p2p close)
    {vertices : List P} {groups : List (ElGroup N)} (hwf : ∀ g ∈ groups, g.WF)
    {fags : List (List (Fag A))} {bp : BdryPair A T}
    {M L : List FaceId} (hM : boundaryFaceIds fags bp.fromTag = some M)
    (hL : boundaryFaceIds fags bp.toTag = some L)
    (hface : ∀ f ∈ M ++ L, IsFace groups f) (hMn : M.Nodup) (hLn : L.Nodup)
    (hMs : ∀ f ∈ M, ∀ f' ∈ M, SameVertices groups f f' → f = f')
    (hLs : ∀ f ∈ L, ∀ f' ∈ L, SameVertices groups f f' → f = f')
    (hinj : ∀ v v' w, VertexOf groups M v → VertexOf groups M v' → VertexOf groups L w →
      CloseVertices close vertices bp v w → CloseVertices close vertices bp v' w → v = v')
    (hfix : ∀ v w, VertexOf groups M v → VertexOf groups L v → VertexOf groups L w →
      CloseVertices close vertices bp v w → w = v)
    (hfun : ∀ v w w', VertexOf groups M v → VertexOf groups L w → VertexOf groups L w' →
      CloseVertices close vertices bp v w → CloseVertices close vertices bp v w' → w = w')
    (hlen : M.length = L.length)
    (hcount : ∀ g < groups.length, ∀ g' < groups.length,
      (M.filter fun f => f.grp == g).length = (M.filter fun f => f.grp == g').length ∧
      (L.filter fun f => f.grp == g).length = (L.filter fun f => f.grp == g').length)
    (hgroups : groups ≠ [])
    (hverts : ∀ v, VertexOf groups (M ++ L) v → v < vertices.length)
    (hmap : ∀ f ∈ M, ∃ f' ∈ L, MapsToFace close vertices groups bp f f') :
    (matchBoundaryFaces p2p vertices groups fags bp).isSome := by
  have hnum : ∀ X : List FaceId, (∀ g < groups.length, ∀ g' < groups.length,
      (X.filter fun f => f.grp == g).length = (X.filter fun f => f.grp == g').length) →
      ∃ vm, bdryVertexNumbers groups X = some vm := by
    intro X hX
    obtain ⟨g0, gs, rfl⟩ := List.exists_cons_of_ne_nil hgroups
    unfold bdryVertexNumbers
    simp only [List.length_cons, List.range_succ_eq_map, List.map_cons, List.map_map]
    rw [if_pos]
    · exact ⟨_, rfl⟩
    · rw [List.all_eq_true]
      intro c hc
      obtain ⟨g, hg, rfl⟩ := List.mem_map.1 hc
      have := List.mem_range.1 hg
      simp only [Function.comp_apply, beq_iff_eq]
      exact hX (g + 1) (by simpa using this) 0 (by simp)
  obtain ⟨vm, hvm⟩ := hnum M fun g hg g' hg' => (hcount g hg g' hg').1
  obtain ⟨vn, hvn⟩ := hnum L fun g hg g' hg' => (hcount g hg g' hg').2
  obtain ⟨hmn, hmm⟩ := mem_bdryVertexNumbers hvm
  obtain ⟨hnn, hnm⟩ := mem_bdryVertexNumbers hvn
  obtain ⟨ptsM, hptsM⟩ := mapM_isSome_iff (f := (vertices[·]?)) (l := vm).2 (by
    intro v hv
    obtain ⟨f, hf, hv⟩ := (hmm v).1 hv
    have := hverts v ⟨f, List.mem_append_left _ hf, hv⟩
    rw [List.getElem?_eq_getElem this]; rfl)
  obtain ⟨ptsN, hptsN⟩ := mapM_isSome_iff (f := (vertices[·]?)) (l := vn).2 (by
    intro v hv
    obtain ⟨f, hf, hv⟩ := (hnm v).1 hv
    have := hverts v ⟨f, List.mem_append_right _ hf, hv⟩
    rw [List.getElem?_eq_getElem this]; rfl)
  obtain ⟨lM, gM⟩ := mapM_getElem?_some hptsM
  obtain ⟨lN, gN⟩ := mapM_getElem?_some hptsN
  obtain ⟨lp, gp⟩ := hp2p bp.aff bp.tol ptsM ptsN
  -- each vertex of the first boundary has a close one in the second
  have hexv : ∀ v ∈ vm, ∃ w ∈ vn, CloseVertices close vertices bp v w := by
    intro v hv
    obtain ⟨f, hf, vs, hvs, hv⟩ := (hmm v).1 hv
    obtain ⟨f', hf', vs0, ws, vs', h1, h2, h3, h4⟩ := hmap f hf
    rw [hvs] at h1
    obtain rfl := Option.some.inj h1
    obtain ⟨i, hi⟩ := List.mem_iff_getElem?.1 hv
    have hil := (List.getElem?_eq_some_iff.1 hi).1
    have hil' : i < ws.length := h4.length_eq ▸ hil
    have hc := (List.forall₂_iff_get.1 h4).2 i hil hil'
    simp only [List.get_eq_getElem] at hc
    rw [(List.getElem?_eq_some_iff.1 hi).2] at hc
    exact ⟨ws[i], (hnm _).2 ⟨f', hf', vs', h2, h3.mem_iff.1 (List.getElem_mem _)⟩, hc⟩
  obtain ⟨m2n, hm2n⟩ := mapM_isSome_iff (f := (id : Option Nat → Option Nat))
    (l := p2p bp.aff bp.tol ptsM ptsN).2 (by
    intro o ho
    obtain ⟨i, hi⟩ := List.mem_iff_getElem?.1 ho
    have hil : i < ptsM.length := lp ▸ (List.getElem?_eq_some_iff.1 hi).1
    have hiv : i < vm.length := by omega
    obtain ⟨p, hp, hvp⟩ := gM i _ (List.getElem?_eq_getElem hiv)
    obtain ⟨w, hw, p', q, hp', hq, hc⟩ := hexv vm[i] (List.getElem_mem _)
    rw [hvp] at hp'
    obtain rfl := Option.some.inj hp'
    obtain ⟨k, hk⟩ := List.mem_iff_getElem?.1 hw
    obtain ⟨q', hq', hwq⟩ := gN k w hk
    rw [hq] at hwq
    obtain rfl := Option.some.inj hwq
    obtain ⟨j, hj⟩ := hcomp bp.aff bp.tol ptsM ptsN i p hp ⟨q, List.mem_of_getElem? hq', hc⟩
    rw [hi] at hj
    rw [Option.some.inj hj]
    rfl)
  obtain ⟨l2, g2⟩ := mapM_getElem?_some hm2n
  obtain ⟨matched, hmat⟩ := mapM_isSome_iff (f := (vn[·]?)) (l := m2n).2 (by
    intro j hj
    obtain ⟨i, hi⟩ := List.mem_iff_getElem?.1 hj
    have hil : i < (p2p bp.aff bp.tol ptsM ptsN).length := by
      have := (List.getElem?_eq_some_iff.1 hi).1
      omega
    obtain ⟨j', hj', h1⟩ := g2 i _ (List.getElem?_eq_getElem hil)
    rw [hi] at hj'
    obtain rfl := Option.some.inj hj'
    simp only [id] at h1
    obtain ⟨p, q, _, hq, _⟩ := gp i j (by rw [List.getElem?_eq_getElem hil, h1])
    have := (List.getElem?_eq_some_iff.1 hq).1
    rw [List.getElem?_eq_getElem (by omega)]; rfl)
  obtain ⟨lmat, gmat⟩ := mapM_getElem?_some hmat
  set vmap := vertexIndexMap vm matched with hvmap
  have himg : ∀ v, v ∈ vm → vmap v ∈ vn ∧ CloseVertices close vertices bp v (vmap v) := by
    intro v hv
    obtain ⟨i, hi⟩ := List.mem_iff_getElem?.1 hv
    obtain ⟨p, hp, hvp⟩ := gM i v hi
    have hil : i < (p2p bp.aff bp.tol ptsM ptsN).length := by
      rw [lp]; exact (List.getElem?_eq_some_iff.1 hp).1
    obtain ⟨j, hj, hj'⟩ := g2 i _ (List.getElem?_eq_getElem hil)
    simp only [id] at hj'
    obtain ⟨w, hw, hw'⟩ := gmat i j hj
    have hvw : vmap v = w := mem_vertexIndexMap (by omega) hmn hi hw
    obtain ⟨p', q, hp', hq, hc⟩ := gp i j (by rw [List.getElem?_eq_getElem hil, hj'])
    rw [hp] at hp'; cases hp'
    obtain ⟨q', hq', hwq⟩ := gN j w hw'
    rw [hq] at hq'; cases hq'
    rw [hvw]
    exact ⟨List.mem_of_getElem? hw', p, q, hvp, hwq, hc⟩
  have hvinj : ∀ v ∈ vm, ∀ v' ∈ vm, vmap v = vmap v' → v = v' := by
    intro v hv v' hv' he
    obtain ⟨h1, h2⟩ := himg v hv
    obtain ⟨h3, h4⟩ := himg v' hv'
    rw [← he] at h4
    exact hinj v v' _ ((hmm v).1 hv) ((hmm v').1 hv') ((hnm _).1 h1) h2 h4
  have hvfix : ∀ v ∈ vn, vmap v = v := by
    intro v hv
    by_cases hm : v ∈ vm
    · obtain ⟨h1, h2⟩ := himg v hm
      exact hfix v _ ((hmm v).1 hm) ((hnm v).1 hv) ((hnm _).1 h1) h2
    · exact vertexIndexMap_not_mem hm
  have hMk : ∀ f ∈ M, ∀ f' ∈ M, faceKey groups vmap f = faceKey groups vmap f' → f = f' := by
    intro f hf f' hf' hk
    obtain ⟨vs, hvs⟩ := faceVerts_isSome hwf (hface f (List.mem_append_left _ hf))
    obtain ⟨vs', hvs'⟩ := faceVerts_isSome hwf (hface f' (List.mem_append_left _ hf'))
    rw [faceKey_eq_iff hvs hvs'] at hk
    refine hMs f hf f' hf' ⟨vs, vs', hvs, hvs', perm_of_map_perm ?_ hk⟩
    have hin : ∀ a ∈ vs ++ vs', a ∈ vm := by
      intro a ha
      rcases List.mem_append.1 ha with ha | ha
      · exact (hmm a).2 ⟨f, hf, vs, hvs, ha⟩
      · exact (hmm a).2 ⟨f', hf', vs', hvs', ha⟩
    intro a ha b hb
    exact hvinj a (hin a ha) b (hin b hb)
  have hmapL : ∀ f ∈ L, ∀ vs, faceVerts groups f = some vs → vs.map vmap = vs := by
    intro f hf vs hvs
    conv_rhs => rw [← List.map_id vs]
    exact List.map_congr_left fun a ha => hvfix a ((hnm a).2 ⟨f, hf, vs, hvs, ha⟩)
  have hLk : ∀ f ∈ L, ∀ f' ∈ L, faceKey groups vmap f = faceKey groups vmap f' → f = f' := by
    intro f hf f' hf' hk
    obtain ⟨vs, hvs⟩ := faceVerts_isSome hwf (hface f (List.mem_append_right _ hf))
    obtain ⟨vs', hvs'⟩ := faceVerts_isSome hwf (hface f' (List.mem_append_right _ hf'))
    rw [faceKey_eq_iff hvs hvs', hmapL f hf vs hvs, hmapL f' hf' vs' hvs'] at hk
    exact hLs f hf f' hf' ⟨vs, vs', hvs, hvs', hk⟩
  have hidx : ∀ {X : List FaceId}, X.Nodup →
      (∀ f ∈ X, ∀ f' ∈ X, faceKey groups vmap f = faceKey groups vmap f' → f = f') →
      ∀ (i j : Nat) f f', X[i]? = some f → X[j]? = some f' →
        faceKey groups vmap f = faceKey groups vmap f' → i = j := by
    intro X hX hk i j f f' hi hj he
    have := hk f (List.mem_of_getElem? hi) f' (List.mem_of_getElem? hj) he
    subst this
    exact (List.getElem?_inj (List.getElem?_eq_some_iff.1 hi).1 hX).1 (hi.trans hj.symm)
  have htwo := fun i j => matchFaces_two (i := i) (j := j) (hidx hMn hMk) (hidx hLn hLk)
  -- partners have the same key
  have hpart : ∀ f ∈ M, ∃ f' ∈ L, faceKey groups vmap f = faceKey groups vmap f' := by
    intro f hf
    obtain ⟨f', hf', vs, ws, vs', h1, h2, h3, h4⟩ := hmap f hf
    refine ⟨f', hf', ?_⟩
    rw [faceKey_eq_iff h1 h2, hmapL f' hf' vs' h2]
    refine List.Perm.trans (List.Perm.of_eq ?_) h3
    refine List.ext_getElem (by simp [h4.length_eq]) ?_
    intro i hi1 hi2
    have hi : i < vs.length := by simpa using hi1
    have hc := (List.forall₂_iff_get.1 h4).2 i hi hi2
    simp only [List.get_eq_getElem] at hc
    rw [List.getElem_map]
    have hv : vs[i] ∈ vm := (hmm _).2 ⟨f, hf, vs, h1, List.getElem_mem _⟩
    have hw : VertexOf groups L ws[i] := ⟨f', hf', vs', h2, h3.mem_iff.1 (List.getElem_mem _)⟩
    exact hfun vs[i] _ _ ((hmm _).1 hv) ((hnm _).1 (himg _ hv).1) hw (himg _ hv).2 hc
  have hcnt : (matchFaces groups (M ++ L) vmap).length = M.length := by
    have hfst : ((matchFaces groups (M ++ L) vmap).map Prod.fst).Nodup :=
      (map_fst_consecMatches_sublist _).nodup (nodup_lexOrder _ _)
    have hp : ((matchFaces groups (M ++ L) vmap).map Prod.fst).Perm (List.range M.length) := by
      rw [List.perm_ext_iff_of_nodup hfst List.nodup_range]
      intro i
      rw [List.mem_range]
      constructor
      · intro hi
        obtain ⟨⟨i', j⟩, hij, rfl⟩ := List.mem_map.1 hi
        exact (htwo _ _ hij).1
      · intro hi
        obtain ⟨f', hf', hk⟩ := hpart M[i] (List.getElem_mem _)
        obtain ⟨j, hj⟩ := List.mem_iff_getElem?.1 hf'
        obtain ⟨k, hk | hk⟩ := matchFaces_exists (groups := groups) (ids := M ++ L) (vmap := vmap)
          (i := i) (j := M.length + j) (f := M[i]) (f' := f')
          (by rw [List.getElem?_append_left hi]; exact List.getElem?_eq_getElem hi)
          (by rw [List.getElem?_append_right (by omega), Nat.add_sub_cancel_left]; exact hj)
          (by omega) hk
        · exact List.mem_map.2 ⟨_, hk, rfl⟩
        · have := (htwo _ _ hk).2.1
          omega
    simpa using hp.length_eq
  unfold matchBoundaryFaces
  rw [hM, hL]
  simp only [Option.bind_eq_bind, Option.bind_some]
  rw [if_neg (by simpa using hlen), hvm, hvn]
  simp only [Option.bind_some, hptsM, hptsN, hm2n, hmat]
  rw [if_neg (by rw [← hvmap]; simpa using hcnt)]
  rfl

theorem exP2P_complete : P2PComplete exP2P (fun a _ p q => q = p + a) := by
  rintro a t src tgt i p hp ⟨q, hq, rfl⟩
  simp only [exP2P, List.getElem?_map, hp, Option.map_some, Option.some.injEq]
  rw [← Option.isSome_iff_exists, List.findIdx?_isSome, List.any_eq_true]
  exact ⟨_, hq, by simp⟩

/-- The ends of [0, 2] are matched by the translation by 2. -/
example : (matchBoundaryFaces exP2P [0, 1, 2] exGlueGroups exGlueFags
    ⟨.user 0 false, .user 1 false, 2, ()⟩).isSome := by
  have h0 : ∀ v, VertexOf exGlueGroups [⟨0, 0, 0⟩] v → v = 0 := by
    rintro v ⟨f, hf, vs, hvs, hv⟩
    simp only [List.mem_singleton] at hf
    subst hf
    have : vs = [0] := Option.some.inj (hvs.symm.trans rfl)
    simpa [this] using hv
  have h1 : ∀ v, VertexOf exGlueGroups [⟨0, 1, 1⟩] v → v = 2 := by
    rintro v ⟨f, hf, vs, hvs, hv⟩
    simp only [List.mem_singleton] at hf
    subst hf
    have : vs = [2] := Option.some.inj (hvs.symm.trans rfl)
    simpa [this] using hv
  refine C16_match_defined (M := [⟨0, 0, 0⟩]) (L := [⟨0, 1, 1⟩]) exP2P_sound exP2P_complete
    (by unfold ElGroup.WF; decide) (by decide) (by decide) ?_ (by simp) (by simp) (by simp) (by simp)
    (fun v v' w h h' _ _ _ => (h0 v h).trans (h0 v' h').symm) ?_
    (fun v w w' _ h h' _ _ => (h1 w h).trans (h1 w' h').symm) rfl (by decide) (by decide) ?_ ?_
  · intro f hf
    simp only [List.cons_append, List.nil_append, List.mem_cons, List.not_mem_nil, or_false] at hf
    rcases hf with rfl | rfl <;> exact ⟨_, rfl, by decide, by decide⟩
  · intro v w h h' _ _
    have := h0 v h
    have := h1 v h'
    omega
  · rintro v ⟨f, hf, vs, hvs, hv⟩
    have : v = 0 ∨ v = 2 := by
      rcases List.mem_append.1 hf with hf | hf
      · exact Or.inl (h0 v ⟨f, hf, vs, hvs, hv⟩)
      · exact Or.inr (h1 v ⟨f, hf, vs, hvs, hv⟩)
    simp only [List.length_cons, List.length_nil]
    omega
  · intro f hf
    rw [List.mem_singleton] at hf
    subst hf
    exact ⟨_, List.mem_singleton.2 rfl, [0], [2], [2], rfl, rfl, List.Perm.refl _,
      List.Forall₂.cons ⟨0, 2, rfl, rfl, rfl⟩ List.Forall₂.nil⟩

end Meshmode
