import Verif.Connection.PartExchange
import Verif.Connection.FaceEmbed
import Verif.Distributed.Connected

/-!
# Traces on all faces, put together from traces on parts of them (C103)

The face restrictions of `make_face_restriction` and the embeddings of `make_face_to_all_faces_embedding`
(meshmode/discretization/connection/face.py) for the interior faces, for boundary tags and, on a part made by
`partition_mesh` (meshmode/mesh/processing.py), for the boundaries with other parts.  All functions are modelled in other
modules; this one adds no model.
-/
namespace Meshmode

variable {N P A R U M : Type}

/-! ## Specification -/

/-- Each face of each element is among exactly one of the face sets, once. (Specification or proof vocabulary, no code.) -/
def FacesCovered (sels : List FaceSel) (groups : List (ElGroup N)) (fags : List (List (Fag A))) : Prop :=
  ∀ (g : Nat) grp fg, groups[g]? = some grp → fags[g]? = some fg →
    (sels.flatMap fun s => groupFaces s grp.nelements grp.nfaces fg).Perm (groupFaces .all grp.nelements grp.nfaces fg)

/-- A face set, its restriction, discretization and unit nodes, its embedding in all faces, a trace and the trace
embedded. (Specification or proof vocabulary, no code.) -/
structure FaceTrace (R M U : Type) where
  sel : FaceSel
  restr : FaceRestr M U
  discr : List (DGroup R U)
  unit : List U
  conn : DirectConn R U
  trace : DofArr R
  embedded : DofArr R

/-- The trace is that of the volume data `w`, made and embedded by the code.
(Specification or proof vocabulary, no code.) -/
structure FaceTrace.OK [CommRing R] [DecidableEq U] (t : FaceTrace R M U) (perFace : Bool) (un : Nat → Nat → U)
    (res : Nat → Nat → N → M) (nv : Nat) (groups : List (ElGroup N)) (fags : List (List (Fag A)))
    (volD allD : List (DGroup R U)) (allUnit : List U) (nt : Nat → Nat) (merge : Bool) (w : DofArr R) : Prop where
  made : makeFaceRestriction perFace un res t.sel nv groups fags = some t.restr
  discrOK : FaceDiscrOK perFace t.sel groups fags t.discr t.unit nt
  embedding : faceEmbedding (groups.map fun g => (g.nelements, g.nfaces)) t.restr.batches t.discr allD t.unit allUnit =
    some t.conn
  traced : (DirectConn.mk volD t.discr t.restr.batches true).call merge w = some t.trace
  emb : t.conn.call merge t.trace = some t.embedded

/-! ## Adding traces -/

theorem groupFaces_all_nodup (nel nf : Nat) (fl : List (Fag A)) : (groupFaces .all nel nf fl).Nodup := by
  by_cases h0 : 0 < nel ∧ 0 < nf
  · exact (C27_all_numbers fl _ _ 0 0 h0.1 h0.2).2.2.2
  · have : groupFaces .all nel nf fl = [] := by
      rw [List.eq_nil_iff_forall_not_mem]
      rintro ⟨e, k⟩ hef
      have := (C27_requested .all _ _ fl e k).1 hef
      simp only at this
      omega
    rw [this]
    exact List.nodup_nil

theorem facesCovered_iff {sels : List FaceSel} {groups : List (ElGroup N)} {fags : List (List (Fag A))} :
    FacesCovered sels groups fags ↔ ∀ (g : Nat) grp fg, groups[g]? = some grp → fags[g]? = some fg →
      (∀ s ∈ sels, (groupFaces s grp.nelements grp.nfaces fg).Nodup) ∧
      (sels.Pairwise fun s s' => ∀ x, x ∈ groupFaces s grp.nelements grp.nfaces fg →
        x ∉ groupFaces s' grp.nelements grp.nfaces fg) ∧
      ∀ el f, (el < grp.nelements ∧ f < grp.nfaces) ↔ ∃ s ∈ sels, ⟨el, f⟩ ∈ groupFaces s grp.nelements grp.nfaces fg := by
  constructor
  · intro h g grp fg hg hfg
    have hp := h g grp fg hg hfg
    have hnd := hp.nodup_iff.2 (groupFaces_all_nodup _ _ fg)
    obtain ⟨h1, h2⟩ := List.nodup_flatMap.1 hnd
    refine ⟨h1, h2.imp fun hd x hx hx' => hd hx hx', ?_⟩
    intro el f
    rw [← List.mem_flatMap, hp.mem_iff, C27_requested]
  · intro h g grp fg hg hfg
    obtain ⟨h1, h2, h3⟩ := h g grp fg hg hfg
    refine (List.perm_ext_iff_of_nodup (List.nodup_flatMap.2 ⟨h1, h2.imp fun hd x hx hx' => hd x hx hx'⟩)
      (groupFaces_all_nodup _ _ fg)).2 ?_
    rintro ⟨el, f⟩
    rw [List.mem_flatMap, ← h3, C27_requested]

/-- C103: if each face is in exactly one of a list of face sets, then restricting volume data to each of them, embedding
the traces in all faces and adding up is restricting to all faces. -/
theorem C103_sum [CommRing R] [DecidableEq U] {perFace : Bool} {un : Nat → Nat → U} {res : Nat → Nat → N → M}
    {nv : Nat} {groups : List (ElGroup N)} {fags : List (List (Fag A))}
    (hlen : groups.length = fags.length) (hnf : ∀ g ∈ groups, 1 < g.nfaces)
    {ts : List (FaceTrace R M U)} (hcover : FacesCovered (ts.map FaceTrace.sel) groups fags)
    {volD D : List (DGroup R U)} {unit : List U} {nt : Nat → Nat} {merge : Bool} {w : DofArr R}
    (hts : ∀ t ∈ ts, t.OK perFace un res nv groups fags volD D unit nt merge w)
    (hvs : ∀ d ∈ volD, PickSound d)
    (hvol : ∀ (g : Nat) grp, groups[g]? = some grp → ∃ d, volD[g]? = some d ∧ d.nel = grp.nelements ∧
      ∀ f I, d.pick (un g f) = some I → I.length = nt g)
    {r : FaceRestr M U} (h : makeFaceRestriction perFace un res .all nv groups fags = some r) {v : DofArr R}
    (hv : (DirectConn.mk volD D r.batches true).call merge w = some v)
    {g f : Nat} {grp : ElGroup N} (hg : groups[g]? = some grp) (hf : f < grp.nfaces)
    {el i : Nat} (hel : el < grp.nelements) (hi : i < nt g) :
    (ts.map fun t => t.embedded (bdryGroupNr perFace (groups.map ElGroup.nfaces) g f)
      (allFacesNr perFace grp.nelements f el) i).sum =
    v (bdryGroupNr perFace (groups.map ElGroup.nfaces) g f) (allFacesNr perFace grp.nelements f el) i := by
  have hnf' : perFace = false → ∀ g ∈ groups, 0 < g.nfaces := fun _ g hg => by
    have := hnf g hg; omega
  have hglt : g < groups.length := (List.getElem?_eq_some_iff.1 hg).1
  obtain ⟨fg, hfg⟩ : ∃ fg, fags[g]? = some fg := ⟨_, List.getElem?_eq_getElem (hlen ▸ hglt)⟩
  have hcov := facesCovered_iff.1 hcover
  have hok : ∀ t ∈ ts, ReqOK t.sel groups fags := by
    intro t ht g grp fg hg hfg
    obtain ⟨h1, _, h3⟩ := hcov g grp fg hg hfg
    have hm : t.sel ∈ ts.map FaceTrace.sel := List.mem_map.2 ⟨t, ht, rfl⟩
    exact ⟨fun ef hef => ((h3 ef.el ef.face).2 ⟨_, hm, hef⟩).symm, h1 _ hm⟩
  obtain ⟨_, hdis, hmem⟩ := hcov g grp fg hg hfg
  obtain ⟨s, hs, hx⟩ := (hmem el f).1 ⟨hel, hf⟩
  obtain ⟨t, ht, rfl⟩ := List.mem_map.1 hs
  obtain ⟨k, hk⟩ := List.mem_iff_getElem?.1 ht
  obtain ⟨d, hd, hdn, hdp⟩ := hvol g grp hg
  have E : ∀ t ∈ ts,
      (∀ n, (origins perFace grp.nfaces (groupFaces t.sel grp.nelements grp.nfaces fg) f)[n]? = some ⟨el, f⟩ →
        t.embedded (bdryGroupNr perFace (groups.map ElGroup.nfaces) g f) (allFacesNr perFace grp.nelements f el) i =
        t.trace (bdryGroupNr perFace (groups.map ElGroup.nfaces) g f) n i) ∧
      (⟨el, f⟩ ∉ groupFaces t.sel grp.nelements grp.nfaces fg →
        t.embedded (bdryGroupNr perFace (groups.map ElGroup.nfaces) g f) (allFacesNr perFace grp.nelements f el) i =
          0) := by
    intro t ht
    obtain ⟨d₁, p1, p2, p3, p4⟩ := (hts t ht).discrOK.group g f grp fg hg hfg hf
    exact C28_embedding (hts t ht).made hlen hnf (hok t ht) (hts t ht).embedding (hts t ht).discrOK.pickSound
      (hts t ht).emb hg hfg hf p1 p3 p4 hel (i := i) (by omega)
  rw [sum_map_single ts _ k t hk]
  · obtain ⟨n, hn⟩ := mem_origins (perFace := perFace) hf hx
    rw [(E t ht).1 n hn, C27_value h hlen hnf' hvs hv hg hfg hd hdn hf (fun ef hef =>
      ((C27_requested .all _ _ fg ef.el ef.face).1 hef).symm) hdp hi
      (allFacesNr_origins (perFace := perFace) fg hel hf)]
    exact C27_value (hts t ht).made hlen hnf' hvs (hts t ht).traced hg hfg hd hdn hf
      (hok t ht g grp fg hg hfg).1 hdp hi hn
  · intro k' t' hk' hne
    refine (E t' (List.mem_of_getElem? hk')).2 fun hx' => ?_
    rw [List.pairwise_map, List.pairwise_iff_getElem] at hdis
    obtain ⟨b1, b2⟩ := List.getElem?_eq_some_iff.1 hk
    obtain ⟨c1, c2⟩ := List.getElem?_eq_some_iff.1 hk'
    rcases Nat.lt_or_gt_of_ne hne with hlt | hlt
    · exact hdis k' k c1 b1 hlt _ (c2 ▸ hx') (b2 ▸ hx)
    · exact hdis k k' b1 c1 hlt _ (b2 ▸ hx) (c2 ▸ hx')

/-! ## Which faces there are -/

/-- The faces that an adjacency group lists under a tag. (Specification or proof vocabulary, no code.) -/
def bdryFaces (t : BTag) (fag : Fag A) : List ElFace :=
  match fag.bdry? with
  | some (t', fs) => if t' = t then fs else []
  | none => []

theorem groupFaces_bdry (t : BTag) (n k : Nat) (l : List (Fag A)) :
    groupFaces (.tag t) n k l = l.flatMap (bdryFaces t) := rfl

theorem bdryFaces_nil {t : BTag} {l : List (Fag A)} (h : t ∉ (l.filterMap Fag.bdry?).map Prod.fst) :
    l.flatMap (bdryFaces t) = [] := by
  rw [List.flatMap_eq_nil_iff]
  intro fg hfg
  unfold bdryFaces
  split
  · rename_i t' fs hb
    rw [if_neg]
    rintro rfl
    exact h (List.mem_map.2 ⟨_, List.mem_filterMap.2 ⟨fg, hfg, hb⟩, rfl⟩)
  · rfl

theorem flatMap_completeGroup_bdry {t : BTag} {i : Nat} {l : List (Fag A)}
    (h : t ∈ (l.filterMap Fag.bdry?).map Prod.fst ∨ (t ≠ .none ∧ t ≠ .all ∧ t ≠ .reallyAll)) :
    (completeGroup i l).flatMap (bdryFaces t) = l.flatMap (bdryFaces t) := by
  unfold completeGroup
  simp only [List.flatMap_append]
  rw [List.append_assoc, List.append_assoc]
  conv_rhs => rw [← List.append_nil (l.flatMap (bdryFaces t))]
  congr 1
  have key : ∀ (t' : BTag) fs, (t' = .none ∨ t' = .all ∨ t' = .reallyAll) →
      ((if t' ∈ (l.filterMap Fag.bdry?).map Prod.fst then [] else [Fag.boundary i t' fs]) : List (Fag A)).flatMap
        (bdryFaces t) = [] := by
    intro t' fs ht'
    split
    · rfl
    · rename_i hn
      have : t' ≠ t := by
        rintro rfl
        rcases h with h | ⟨h1, h2, h3⟩
        · exact hn h
        · rcases ht' with h | h | h
          · exact h1 h
          · exact h2 h
          · exact h3 h
      simp [bdryFaces, Fag.bdry?, this]
  rw [key _ _ (Or.inl rfl), key _ _ (Or.inr (Or.inl rfl)), key _ _ (Or.inr (Or.inr rfl))]
  rfl

theorem nodup_completeGroup_bdry {t : BTag} {i : Nat} {l : List (Fag A)} (h : (l.flatMap (bdryFaces t)).Nodup) :
    ((completeGroup i l).flatMap (bdryFaces t)).Nodup := by
  by_cases hin : t ∈ (l.filterMap Fag.bdry?).map Prod.fst ∨ (t ≠ .none ∧ t ≠ .all ∧ t ≠ .reallyAll)
  · rwa [flatMap_completeGroup_bdry hin]
  · rw [not_or] at hin
    have hnil := bdryFaces_nil hin.1
    unfold completeGroup
    simp only [List.flatMap_append]
    rw [hnil, List.nil_append]
    have key : ∀ (t' : BTag) fs, t ≠ t' →
        ((if t' ∈ (l.filterMap Fag.bdry?).map Prod.fst then [] else [Fag.boundary i t' fs]) : List (Fag A)).flatMap
          (bdryFaces t) = [] := by
      intro t' fs ht'
      split
      · rfl
      · simp [bdryFaces, Fag.bdry?, Ne.symm ht']
    have own : ∀ (fs : List ElFace), fs.Nodup →
        (((if t ∈ (l.filterMap Fag.bdry?).map Prod.fst then [] else [Fag.boundary i t fs]) : List (Fag A)).flatMap
          (bdryFaces t)).Nodup := by
      intro fs hfs
      split
      · simp
      · simpa [bdryFaces, Fag.bdry?] using hfs
    by_cases h1 : t = .none
    · subst h1
      rw [key .all _ (by decide), key .reallyAll _ (by decide), List.append_nil, List.append_nil]
      exact own _ List.nodup_nil
    · by_cases h2 : t = .all
      · subst h2
        rw [key .none _ (by decide), key .reallyAll _ (by decide), List.append_nil, List.nil_append]
        exact own _ (C06_merge_union _).1
      · by_cases h3 : t = .reallyAll
        · subst h3
          rw [key .none _ (by decide), key .all _ (by decide), List.nil_append, List.nil_append]
          exact own _ (C06_merge_union _).1
        · exact absurd ⟨h1, h2, h3⟩ hin.2

/-! ## Computed adjacency -/

theorem unmatchedFaces_nodup (fpairs : List (FaceId × FaceId)) (i : Nat) (g : ElGroup N) :
    (unmatchedFaces fpairs i g).Nodup := by
  unfold unmatchedFaces
  refine (List.nodup_map_iff_inj_on ?_).2 ?_
  · exact (nodup_groupFaceIds i g).filter _
  · rintro ⟨a, b, c⟩ h ⟨a', b', c'⟩ h' heq
    have h1 := (mem_groupFaceIds.1 (List.mem_filter.1 h).1).1
    have h2 := (mem_groupFaceIds.1 (List.mem_filter.1 h').1).1
    simp only [ElFace.mk.injEq] at heq h1 h2
    rw [h1, h2, heq.1, heq.2]

theorem boundaryGroups_nodup {groups : List (ElGroup N)} {dict : List (List Nat × List BTag)} {btags : List BTag}
    (hb : btags.Nodup) (hall : BTag.all ∉ btags) (fpairs : List (FaceId × FaceId)) (i : Nat) (g : ElGroup N) (t : BTag) :
    ((boundaryGroups (A := A) groups dict btags fpairs i g).flatMap (bdryFaces t)).Nodup := by
  unfold boundaryGroups
  have hU := unmatchedFaces_nodup fpairs i g
  generalize unmatchedFaces fpairs i g = bdry at hU
  simp only
  split
  · simp
  have h1 : ((btags.filterMap fun t => (
      let fs := bdry.filter (hasTag groups dict i t)
      if fs.isEmpty then none else some (.boundary i t fs) : Option (Fag A))).flatMap (bdryFaces t)) =
      if t ∈ btags then bdry.filter (hasTag groups dict i t) else [] := by
    clear hall
    induction btags with
    | nil => rfl
    | cons a btags ih =>
      rw [List.nodup_cons] at hb
      have ih := ih hb.2
      by_cases he : (bdry.filter (hasTag groups dict i a)).isEmpty
      · rw [List.filterMap_cons_none (by simp only [he, if_true]), ih]
        rw [List.isEmpty_iff] at he
        by_cases hat : t = a
        · subst hat
          rw [if_neg hb.1, if_pos List.mem_cons_self, he]
        · simp [hat]
      · rw [List.filterMap_cons_some (by simp only [he]; rfl), List.flatMap_cons, ih]
        by_cases hat : t = a
        · subst hat
          rw [if_neg hb.1, if_pos List.mem_cons_self, List.append_nil]
          simp [bdryFaces, Fag.bdry?]
        · simp [hat, bdryFaces, Fag.bdry?, Ne.symm hat]
  rw [List.flatMap_append, h1]
  by_cases ht : t = .all
  · subst ht
    rw [if_neg hall, List.nil_append]
    split
    · simpa [bdryFaces, Fag.bdry?] using hU
    · simp
  · have h2 : ∀ c : Bool, ((if c then [Fag.boundary i .all bdry] else [] : List (Fag A))).flatMap (bdryFaces t) = [] := by
      intro c
      cases c <;> simp [bdryFaces, Fag.bdry?, Ne.symm ht]
    rw [h2, List.append_nil]
    split
    · exact hU.filter _
    · exact List.nodup_nil

theorem mem_groupFaces_tag {fags : List (List (Fag A))} {g : Nat} {fg : List (Fag A)} (hfg : fags[g]? = some fg)
    (t : BTag) (n k el f : Nat) : ⟨el, f⟩ ∈ groupFaces (.tag t) n k fg ↔ InBoundary fags t ⟨g, el, f⟩ := by
  rw [C27_requested]
  constructor
  · rintro ⟨fag, h1, fs, h2, h3⟩
    exact ⟨fg, fag, fs, hfg, h1, h2, h3⟩
  · rintro ⟨l, fag, fs, h0, h1, h2, h3⟩
    simp only at h0
    rw [hfg] at h0
    obtain rfl := Option.some.inj h0
    exact ⟨fag, h1, fs, h2, h3⟩

theorem mem_groupFaces_interior {fags : List (List (Fag A))} {g : Nat} {fg : List (Fag A)} (hfg : fags[g]? = some fg)
    (n k el f : Nat) : ⟨el, f⟩ ∈ groupFaces .interior n k fg ↔ ∃ j el' f', Across fags g el f j el' f' := by
  rw [C27_requested]
  constructor
  · rintro ⟨fag, h1, row, h2, rfl, rfl⟩
    cases fag with
    | interior ig j rows aff => exact ⟨j, row.nel, row.nface, fg, hfg, ig, rows, aff, h1, h2⟩
    | boundary => simp [Fag.interiorRows] at h2
    | interPart => simp [Fag.interiorRows] at h2
  · rintro ⟨j, el', f', l, h0, ig, rows, aff, h1, h2⟩
    rw [hfg] at h0
    obtain rfl := Option.some.inj h0
    exact ⟨_, h1, _, h2, rfl, rfl⟩

theorem interiorRowCount_across {fags : List (List (Fag A))} {f : FaceId} :
    interiorRowCount fags f ≠ 0 ↔ ∃ j el' f', Across fags f.grp f.el f.face j el' f' := by
  unfold interiorRowCount
  rw [← Nat.pos_iff_ne_zero]
  constructor
  · intro h
    by_contra hn
    refine absurd h (by
      rw [Nat.pos_iff_ne_zero, not_not, List.sum_eq_zero_iff_forall_eq_nat]
      intro x hx
      obtain ⟨fg, hfg, rfl⟩ := List.mem_map.1 hx
      rw [List.countP_eq_zero]
      intro r hr hh
      simp only [decide_eq_true_eq] at hh
      cases hl : fags[f.grp]? with
      | none => simp [hl] at hfg
      | some l =>
        rw [hl, Option.getD_some] at hfg
        cases fg with
        | interior ig j rows aff =>
          refine hn ⟨j, r.nel, r.nface, l, hl, ig, rows, aff, hfg, ?_⟩
          rw [← hh.1, ← hh.2]
          exact hr
        | boundary => simp [Fag.interiorRows] at hr
        | interPart => simp [Fag.interiorRows] at hr)
  · rintro ⟨j, el', f', l, hl, ig, rows, aff, h1, h2⟩
    rw [hl, Option.getD_some]
    rw [Nat.pos_iff_ne_zero]
    intro h0
    have h3 := List.sum_eq_zero_iff_forall_eq_nat.1 h0 _ (List.mem_map.2 ⟨_, h1, rfl⟩)
    rw [List.countP_eq_zero] at h3
    exact h3 _ h2 (by simp)

theorem interiorGroups_bdry {aff0 : A} {fpairs : List (FaceId × FaceId)} {i : Nat} {fag : Fag A}
    (h : fag ∈ interiorGroups aff0 fpairs i) : fag.bdry? = none := by
  obtain ⟨j, _, rfl⟩ := List.mem_map.1 h
  rfl

/-- C103: in a mesh with adjacency computed from vertices, no three faces of which have the same vertices, the interior
faces and the faces of tags cover the faces if each boundary face has exactly one of the tags. -/
theorem C103_computed {groups : List (ElGroup N)} (hwf : ∀ g ∈ groups, g.WF) (htwo : AtMostTwoSides groups) (aff0 : A)
    (dict : List (List Nat × List BTag)) {btags : List BTag} (hb : btags.Nodup) (hra : BTag.reallyAll ∉ btags)
    (hall : BTag.all ∉ btags) {ts : List BTag} (hts : ts.Nodup)
    (h1 : ∀ f, IsBoundaryFace groups f → ∃ t ∈ ts, InBoundary (computeFacial aff0 groups dict btags) t f)
    (h2 : ∀ f, IsBoundaryFace groups f → ∀ t ∈ ts, ∀ t' ∈ ts, InBoundary (computeFacial aff0 groups dict btags) t f →
      InBoundary (computeFacial aff0 groups dict btags) t' f → t = t') :
    FacesCovered (.interior :: ts.map .tag) groups (computeFacial aff0 groups dict btags) := by
  have ok := C29_computed_adjacency hwf htwo aff0 dict btags hra
  rw [facesCovered_iff]
  intro g grp fg hg hfg
  have hint : ∀ el f, el < grp.nelements → f < grp.nfaces → ((∃ j el' f',
      Across (computeFacial aff0 groups dict btags) g el f j el' f') ↔ ¬ IsBoundaryFace groups ⟨g, el, f⟩) := by
    intro el f hel hf
    have hface : IsFace groups ⟨g, el, f⟩ := ⟨grp, hg, hf, hel⟩
    rw [← C05_really_all hwf aff0 dict btags hra _ hface, ← interiorRowCount_across (f := ⟨g, el, f⟩)]
    rcases C03_facial_adjacency_complete hwf htwo aff0 dict btags hra _ hface with ⟨a, b⟩ | ⟨a, b, _⟩
    · simp [a, b]
    · simp [a, b]
  have hbd : ∀ t el f, InBoundary (computeFacial aff0 groups dict btags) t ⟨g, el, f⟩ →
      IsBoundaryFace groups ⟨g, el, f⟩ := by
    intro t el f h
    rw [inBoundary_iff_listed hg] at h
    obtain ⟨t', ht'⟩ := listedUnder_complete h
    exact (mem_unmatchedFaces_iff hwf hg).1 (listedUnder_raw_iff.1 ht').1
  have hrange : ∀ el f, IsBoundaryFace groups ⟨g, el, f⟩ → el < grp.nelements ∧ f < grp.nfaces := by
    rintro el f ⟨⟨grp', h1, h2, h3⟩, _⟩
    simp only at h1
    rw [hg] at h1
    obtain rfl := Option.some.inj h1
    exact ⟨h3, h2⟩
  refine ⟨?_, ?_, ?_⟩
  · intro s hs
    rcases List.mem_cons.1 hs with rfl | hs
    · exact ok.nodup g fg hfg
    · obtain ⟨t, ht, rfl⟩ := List.mem_map.1 hs
      rw [groupFaces_bdry]
      unfold computeFacial at hfg
      rw [completeFacial_getElem?, rawFacial_getElem?, hg] at hfg
      obtain rfl := Option.some.inj hfg
      apply nodup_completeGroup_bdry
      rw [List.flatMap_append]
      have h0 : ((interiorGroups aff0 (meshFacePairs groups) g).flatMap (bdryFaces t)) = [] := by
        apply bdryFaces_nil
        intro hm
        rw [← hasEntry_iff] at hm
        obtain ⟨fag, h3, fs, h4⟩ := hm
        rw [interiorGroups_bdry h3] at h4
        cases h4
      rw [h0, List.nil_append]
      exact boundaryGroups_nodup hb hall _ _ _ _
  · rw [List.pairwise_cons]
    constructor
    · intro s hs x hx hx'
      obtain ⟨t, ht, rfl⟩ := List.mem_map.1 hs
      obtain ⟨el, f⟩ := x
      rw [mem_groupFaces_interior hfg] at hx
      rw [mem_groupFaces_tag hfg] at hx'
      have hB := hbd _ _ _ hx'
      obtain ⟨h3, h4⟩ := hrange _ _ hB
      exact (hint el f h3 h4).1 hx hB
    · rw [List.pairwise_map]
      refine (List.Pairwise.and_mem.1 hts).imp ?_
      rintro t t' ⟨ht, ht', hne⟩ ⟨el, f⟩ hx hx'
      rw [mem_groupFaces_tag hfg] at hx hx'
      exact hne (h2 _ (hbd _ _ _ hx) t ht t' ht' hx hx')
  · intro el f
    constructor
    · rintro ⟨hel, hf⟩
      by_cases hB : IsBoundaryFace groups ⟨g, el, f⟩
      · obtain ⟨t, ht, h3⟩ := h1 _ hB
        exact ⟨.tag t, List.mem_cons_of_mem _ (List.mem_map.2 ⟨t, ht, rfl⟩), (mem_groupFaces_tag hfg _ _ _ _ _).2 h3⟩
      · exact ⟨.interior, List.mem_cons_self, (mem_groupFaces_interior hfg _ _ _ _).2 ((hint el f hel hf).2 hB)⟩
    · rintro ⟨s, hs, hx⟩
      rcases List.mem_cons.1 hs with rfl | hs
      · obtain ⟨j, el', f', h3⟩ := (mem_groupFaces_interior hfg _ _ _ _).1 hx
        obtain ⟨grp', h4, h5, h6⟩ := ok.valid _ _ _ _ _ _ h3
        rw [hg] at h4
        obtain rfl := Option.some.inj h4
        exact ⟨h5, h6⟩
      · obtain ⟨t, ht, rfl⟩ := List.mem_map.1 hs
        exact hrange _ _ (hbd t el f ((mem_groupFaces_tag hfg _ _ _ _ _).1 hx))

/-- C103: in a mesh with adjacency computed from vertices, no three faces of which have the same vertices, each face is
an interior face or one of `BTAG_REALLY_ALL`, not both; if all tags used are true boundaries, the same holds for
`BTAG_ALL`. -/
theorem C103_computed_all {groups : List (ElGroup N)} (hwf : ∀ g ∈ groups, g.WF) (htwo : AtMostTwoSides groups) (aff0 : A)
    {dict : List (List Nat × List BTag)} (hd : DistinctKeys dict) {btags : List BTag} (hb : EnumeratesTags dict btags)
    (hra : BTag.reallyAll ∉ btags) (hall : BTag.all ∉ btags) :
    FacesCovered [.interior, .tag .reallyAll] groups (computeFacial aff0 groups dict btags) ∧
    ((∀ t ∈ btags, isTrueBoundary t = true) →
      FacesCovered [.interior, .tag .all] groups (computeFacial aff0 groups dict btags)) := by
  constructor
  · refine C103_computed hwf htwo aff0 dict hb.1 hra hall (ts := [.reallyAll]) (by simp) ?_ (by simp)
    intro f hf
    exact ⟨_, List.mem_singleton.2 rfl, (C05_really_all hwf aff0 dict btags hra f hf.1).2 hf⟩
  · intro htrue
    refine C103_computed hwf htwo aff0 dict hb.1 hra hall (ts := [.all]) (by simp) ?_ (by simp)
    intro f hf
    refine ⟨_, List.mem_singleton.2 rfl, (C05_btag_all_partial hwf aff0 hd hb hall f hf.1 (Or.inl htrue)).2 ⟨hf, ?_⟩⟩
    obtain ⟨vs, hvs⟩ := faceVerts_isSome hwf hf.1
    refine ⟨vs, hvs, ?_⟩
    by_cases hn : ∃ t, TagGiven dict vs t
    · obtain ⟨t, ht⟩ := hn
      refine Or.inr ⟨t, ht, htrue t ?_⟩
      obtain ⟨kv, hkv, _, h5⟩ := ht
      exact (hb.2 t).2 ⟨kv, hkv, h5⟩
    · exact Or.inl fun t ht => hn ⟨t, ht⟩

/-! ## Parts -/

section
variable {m : MMesh N P A} {parts : Parts} {p : Nat} {pm : MMesh N P A} {selp : List Nat}

theorem sameElem_of_part (hP : Partitioned m parts) (hp : getMeshPart m parts p = .ok pm) (hselp : (p, selp) ∈ parts)
    {g el : Nat} {grp' : ElGroup N} (hg : pm.groups[g]? = some grp') (hel : el < grp'.nelements) :
    ∃ e, SameElem m pm selp g el e := by
  obtain ⟨sel, hsel, hn, _, _, hall⟩ := C09_part_elements hP.ids hP.sorted hp
  obtain rfl : sel = selp := by
    have := List.inj_on_of_nodup_map hP.ids hsel hselp rfl
    exact (Prod.mk.inj this).2
  have hgl : IsGlobalNr pm.sizes g el ((pm.sizes.take g).sum + el) :=
    ⟨grp'.nelements, by rw [sizes_getElem?, hg]; rfl, hel, rfl⟩
  have hlt := ((C01_numbering_bijective pm.sizes _).1).2 ⟨g, el, hgl⟩
  obtain ⟨g', j, j', _, _, h1, h2, _⟩ := hall _ _ (List.getElem?_eq_getElem (hn ▸ hlt))
  obtain ⟨rfl, rfl⟩ := (C01_numbering_bijective pm.sizes _).2 _ _ _ _ h2 hgl
  exact ⟨j, _, _, List.getElem?_eq_getElem (hn ▸ hlt), h2, h1⟩

theorem partBoundary_faces (m : MMesh N P A) (table : List (Option (Nat × Nat))) (self : Nat) (sb : Nat → Nat) (i : Nat)
    (l : List (Fag A)) (t : BTag) : (partBoundaryGroups m table self sb i l).flatMap (bdryFaces t) =
      (l.flatMap (bdryFaces t)).filterMap (bdryRow m table self sb i) := by
  unfold partBoundaryGroups
  induction l with
  | nil => rfl
  | cons fag l ih =>
    rw [List.flatMap_cons, List.filterMap_append, ← ih]
    cases hb : fag.bdry? with
    | none =>
      rw [List.filterMap_cons_none hb]
      simp [bdryFaces, hb]
    | some b =>
      rw [List.filterMap_cons_some hb, List.map_cons, List.flatMap_cons]
      congr 1
      obtain ⟨t', fs⟩ := b
      have e : bdryFaces t fag = if t' = t then fs else [] := by rw [bdryFaces, hb]
      rw [e]
      by_cases ht : t' = t <;> simp [bdryFaces, Fag.bdry?, ht]

/-- C103: if the interior faces and the faces of tags `ts` cover the faces of a mesh, then on each of its parts the
interior faces, the faces of these tags and those of the boundaries with the connected parts cover the faces. -/
theorem C103_part [DecidableEq A] (hP : Partitioned m parts)
    (hentry : ∀ l ∈ m.fags, HasEntry l .none ∧ HasEntry l .all ∧ HasEntry l .reallyAll)
    {M : Nat → MMesh N P A} (hM : ∀ x ∈ parts, getMeshPart m parts x.1 = .ok (M x.1))
    {ts : List BTag} (htn : ts.Nodup) (hts : ∀ t ∈ ts, ∀ q, t ≠ .partition q)
    (hcover : FacesCovered (.interior :: ts.map .tag) m.groups m.fags)
    (hselp : (p, selp) ∈ parts) {qs : List Nat} (hqs : getConnectedParts (some (M p).fags) = some qs) :
    FacesCovered (.interior :: (ts.map .tag ++ qs.map fun q => .tag (.partition q))) (M p).groups (M p).fags := by
  have hp := hM _ hselp
  simp only at hp
  have ok' := C102_interior hP hp
  obtain ⟨hqn, _⟩ := C69_exact hqs
  have hqp : ∀ q ∈ qs, q ≠ p ∧ ∃ selq, (q, selq) ∈ parts := by
    intro q hq
    obtain ⟨h1, selq, h2, _⟩ := (C69_partition hP.adj hP.ids hP.sorted hp hselp hqs q).1 hq
    exact ⟨h1, selq, h2⟩
  rw [facesCovered_iff]
  intro g grp' fg' hg' hfg'
  obtain ⟨pidx, required, hs, hv⟩ := hP.spec hp hselp
  obtain ⟨fg, hfg, hfl⟩ := Option.map_eq_some_iff.1 ((part_fags_getElem? hs g).symm.trans hfg')
  have hglt : g < m.groups.length := by
    rw [hP.interior.len]
    exact (List.getElem?_eq_some_iff.1 hfg).1
  obtain ⟨grp, hg⟩ : ∃ grp, m.groups[g]? = some grp := ⟨_, List.getElem?_eq_getElem hglt⟩
  obtain ⟨c1, c2, c3⟩ := facesCovered_iff.1 hcover g grp fg hg hfg
  have hrange : ∀ {el e}, SameElem m (M p) selp g el e → e < grp.nelements ∧ el < grp'.nelements ∧
      grp'.nfaces = grp.nfaces := by
    intro el e h
    obtain ⟨a, b, h1, h2, h3, h4, h5⟩ := sameElem_range hP hp hselp h
    rw [hg] at h1
    rw [hg'] at h2
    obtain rfl := Option.some.inj h1
    obtain rfl := Option.some.inj h2
    exact ⟨h3, h4, h5⟩
  -- membership
  have mI : ∀ el f, ⟨el, f⟩ ∈ groupFaces .interior grp'.nelements grp'.nfaces fg' ↔ ∃ e j e2 f2 el2,
      SameElem m (M p) selp g el e ∧ SameElem m (M p) selp j el2 e2 ∧ Across m.fags g e f j e2 f2 := by
    intro el f
    rw [mem_groupFaces_interior hfg']
    constructor
    · rintro ⟨j, el', f', h⟩
      obtain ⟨e1, e2, h1, h2, h3⟩ := (across_part_iff hP hp hselp).1 h
      exact ⟨e1, j, e2, f', el', h1, h2, h3⟩
    · rintro ⟨e1, j, e2, f', el', h1, h2, h3⟩
      exact ⟨j, el', f', (across_part_iff hP hp hselp).2 ⟨e1, e2, h1, h2, h3⟩⟩
  have mT : ∀ t ∈ ts, ∀ el f, ⟨el, f⟩ ∈ groupFaces (.tag t) grp'.nelements grp'.nfaces fg' ↔ ∃ e,
      SameElem m (M p) selp g el e ∧ ⟨e, f⟩ ∈ groupFaces (.tag t) grp.nelements grp.nfaces fg := by
    intro t ht el f
    rw [mem_groupFaces_tag hfg', C13_part_boundary_partial hP.adj hentry hP.ids hP.sorted hp hselp t (hts t ht)]
    constructor
    · rintro ⟨⟨g1, e, f1⟩, ⟨h1, h2, h3⟩, h4⟩
      simp only at h1 h2 h3
      subst h1 h2
      exact ⟨e, h3, (mem_groupFaces_tag hfg _ _ _ _ _).2 h4⟩
    · rintro ⟨e, h1, h2⟩
      exact ⟨⟨g, e, f⟩, ⟨rfl, rfl, h1⟩, (mem_groupFaces_tag hfg _ _ _ _ _).1 h2⟩
  have mQ : ∀ q selq, (q, selq) ∈ parts → ∀ el f,
      ⟨el, f⟩ ∈ groupFaces (.tag (.partition q)) grp'.nelements grp'.nfaces fg' ↔ p ≠ q ∧ ∃ e j e2 f2 el2,
      SameElem m (M p) selp g el e ∧ SameElem m (M q) selq j el2 e2 ∧ Across m.fags g e f j e2 f2 := by
    intro q selq hq el f
    have side := C102_side hP hp (hM _ hq)
    have hper := filter_partition_perm grp'.nfaces _ fun ef hef => (side.valid g _ _ hg' hfg' ef hef).2
    have := (tagOrigins_props side g).2 el f
    simp only [tagOrigins, hg', hfg'] at this
    rw [← hper.mem_iff]
    refine Iff.trans this ?_
    constructor
    · rintro ⟨j, el2, f2, h⟩
      obtain ⟨hne, e1, e2, h1, h2, h3⟩ := (acrossParts_part_iff hP hp hselp (hM _ hq) hq).1 h
      exact ⟨hne, e1, j, e2, f2, el2, h1, h2, h3⟩
    · rintro ⟨hne, e1, j, e2, f2, el2, h1, h2, h3⟩
      exact ⟨j, el2, f2, (acrossParts_part_iff hP hp hselp (hM _ hq) hq).2 ⟨hne, e1, e2, h1, h2, h3⟩⟩
  have disI : ∀ t ∈ ts, ∀ x, x ∈ groupFaces .interior grp.nelements grp.nfaces fg →
      x ∉ groupFaces (.tag t) grp.nelements grp.nfaces fg := fun t ht =>
    (List.pairwise_cons.1 c2).1 _ (List.mem_map.2 ⟨t, ht, rfl⟩)
  refine ⟨?_, ?_, ?_⟩
  · intro s hs'
    rcases List.mem_cons.1 hs' with rfl | hs'
    · exact ok'.nodup g fg' hfg'
    rcases List.mem_append.1 hs' with hs' | hs'
    · obtain ⟨t, ht, rfl⟩ := List.mem_map.1 hs'
      rw [groupFaces_bdry, ← hfl]
      apply nodup_completeGroup_bdry
      have n1 : ((selfToSelf m (globalElemToPart (nelements m.sizes) parts) pidx (selfGroupBase (M p).sizes)
          g fg).flatMap (bdryFaces t)) = [] := by
        rw [List.flatMap_eq_nil_iff]
        intro fag hfag
        rw [bdryFaces, not_interPart_selfToSelf hfag]
      have n2 : ((selfToOther m (globalElemToPart (nelements m.sizes) parts) pidx (selfGroupBase (M p).sizes)
          (connectedParts m parts (globalElemToPart (nelements m.sizes) parts) pidx) g fg).flatMap (bdryFaces t)) = [] := by
        rw [List.flatMap_eq_nil_iff]
        intro fag hfag
        obtain ⟨_, _, _, _, q, _, _, rfl, _⟩ := mem_selfToOther.1 hfag
        simp [bdryFaces, Fag.bdry?, Ne.symm (hts t ht q.1)]
      rw [List.flatMap_append, List.flatMap_append, n1, n2, List.nil_append, List.nil_append, partBoundary_faces]
      have hn := c1 (.tag t) (List.mem_cons_of_mem _ (List.mem_map.2 ⟨t, ht, rfl⟩))
      have := nodup_filterMap_key (R := fg.flatMap (bdryFaces t)) (key := id) (key' := id)
        (F := bdryRow m (globalElemToPart (nelements m.sizes) parts) pidx (selfGroupBase (M p).sizes) g)
        (by simpa [groupFaces_bdry] using hn) ?_
      · simpa using this
      · intro x hx y hy x' y' hx' hy' heq
        obtain ⟨k, h1, rfl⟩ := bdryRow_eq_some.1 hx'
        obtain ⟨k', h2, rfl⟩ := bdryRow_eq_some.1 hy'
        simp only [id, ElFace.mk.injEq] at heq
        have hxe := ((c3 x.el x.face).2 ⟨_, List.mem_cons_of_mem _ (List.mem_map.2 ⟨t, ht, rfl⟩), hx⟩).1
        have hye := ((c3 y.el y.face).2 ⟨_, List.mem_cons_of_mem _ (List.mem_map.2 ⟨t, ht, rfl⟩), hy⟩).1
        have e1 := (partOf_sameElem hs hv hg hxe).2 ⟨k, h1, rfl⟩
        have e2 := (partOf_sameElem hs hv hg hye).2 ⟨k', h2, rfl⟩
        rw [heq.1] at e1
        have := sameElem_fun e1 e2
        obtain ⟨a, b⟩ := x
        obtain ⟨a', b'⟩ := y
        simp only at this heq
        simp [this, heq.2]
    · obtain ⟨q, hq, rfl⟩ := List.mem_map.1 hs'
      obtain ⟨_, selq, hsq⟩ := hqp q hq
      exact (C102_side hP hp (hM _ hsq)).nodup g grp' fg' hg' hfg'
  · rw [List.pairwise_cons, List.pairwise_append, List.pairwise_map, List.pairwise_map]
    have hIm : ∀ {e f j e2 f2}, Across m.fags g e f j e2 f2 → ⟨e, f⟩ ∈ groupFaces .interior grp.nelements grp.nfaces fg :=
      fun h => (mem_groupFaces_interior hfg _ _ _ _).2 ⟨_, _, _, h⟩
    refine ⟨?_, ?_, ?_, ?_⟩
    · rintro s hs' ⟨el, f⟩ hx hx'
      obtain ⟨e, j, e2, f2, el2, h1, h2, h3⟩ := (mI el f).1 hx
      rcases List.mem_append.1 hs' with hs' | hs'
      · obtain ⟨t, ht, rfl⟩ := List.mem_map.1 hs'
        obtain ⟨e', h4, h5⟩ := (mT t ht el f).1 hx'
        obtain rfl := sameElem_fun h1 h4
        exact disI t ht _ (hIm h3) h5
      · obtain ⟨q, hq, rfl⟩ := List.mem_map.1 hs'
        obtain ⟨hne, selq, hsq⟩ := hqp q hq
        obtain ⟨_, e', j', e2', f2', el2', h4, h5, h6⟩ := (mQ q selq hsq el f).1 hx'
        obtain rfl := sameElem_fun h1 h4
        obtain ⟨rfl, rfl, rfl⟩ := exchange_across_unique hP.interior h3 h6
        exact hne (sameElem_part hP hp hselp hsq h2 h5).1
    · refine (List.Pairwise.and_mem.1 htn).imp ?_
      rintro t t' ⟨ht, ht', hne⟩ ⟨el, f⟩ hx hx'
      obtain ⟨e, h1, h2⟩ := (mT t ht el f).1 hx
      obtain ⟨e', h3, h4⟩ := (mT t' ht' el f).1 hx'
      obtain rfl := sameElem_fun h1 h3
      have hd := List.Pairwise.forall_of_forall_of_flip (R := fun a b : FaceSel => a ≠ b → ∀ x, x ∈ groupFaces a grp.nelements
        grp.nfaces fg → x ∉ groupFaces b grp.nelements grp.nfaces fg) (fun _ _ h => absurd rfl h)
        (by refine (List.pairwise_cons.1 c2).2.imp ?_; intro a b h _; exact h)
        (by refine (List.pairwise_cons.1 c2).2.imp ?_; intro a b h _ x hx hx'; exact h x hx' hx)
      exact hd (List.mem_map.2 ⟨t, ht, rfl⟩) (List.mem_map.2 ⟨t', ht', rfl⟩) (by simpa using hne) _ h2 h4
    · refine (List.Pairwise.and_mem.1 hqn).imp ?_
      rintro q q' ⟨hq, hq', hne⟩ ⟨el, f⟩ hx hx'
      obtain ⟨_, selq, hsq⟩ := hqp q hq
      obtain ⟨_, selq', hsq'⟩ := hqp q' hq'
      obtain ⟨_, e, j, e2, f2, el2, h1, h2, h3⟩ := (mQ q selq hsq el f).1 hx
      obtain ⟨_, e', j', e2', f2', el2', h4, h5, h6⟩ := (mQ q' selq' hsq' el f).1 hx'
      obtain rfl := sameElem_fun h1 h4
      obtain ⟨rfl, rfl, rfl⟩ := exchange_across_unique hP.interior h3 h6
      exact hne (sameElem_part hP (hM _ hsq) hsq hsq' h2 h5).1.symm
    · rintro s hs' s' hs'' ⟨el, f⟩ hx hx'
      obtain ⟨t, ht, rfl⟩ := List.mem_map.1 hs'
      obtain ⟨q, hq, rfl⟩ := List.mem_map.1 hs''
      obtain ⟨_, selq, hsq⟩ := hqp q hq
      obtain ⟨e, h1, h2⟩ := (mT t ht el f).1 hx
      obtain ⟨_, e', j', e2', f2', el2', h4, h5, h6⟩ := (mQ q selq hsq el f).1 hx'
      obtain rfl := sameElem_fun h1 h4
      exact disI t ht _ (hIm h6) h2
  · intro el f
    constructor
    · rintro ⟨hel, hf⟩
      obtain ⟨e, he⟩ := sameElem_of_part hP hp hselp hg' hel
      obtain ⟨r1, r2, r3⟩ := hrange he
      obtain ⟨s, hs', hx⟩ := (c3 e f).1 ⟨r1, r3 ▸ hf⟩
      rcases List.mem_cons.1 hs' with rfl | hs'
      · obtain ⟨j, e2, f2, hac⟩ := (mem_groupFaces_interior hfg _ _ _ _).1 hx
        obtain ⟨grp2, hg2, he2, _⟩ := hP.interior.valid _ _ _ _ _ _ (hP.interior.symm _ _ _ _ _ _ hac)
        obtain ⟨z, hz, el2, hel2⟩ := sameElem_exists hP hM (List.ne_nil_of_mem hselp) hg2 he2
        by_cases hzp : z.1 = p
        · obtain rfl : z = (p, selp) := List.inj_on_of_nodup_map hP.ids hz hselp hzp
          exact ⟨.interior, List.mem_cons_self, (mI el f).2 ⟨e, j, e2, f2, el2, he, hel2, hac⟩⟩
        · have hzq : z.1 ∈ qs := by
            refine (C69_partition hP.adj hP.ids hP.sorted hp hselp hqs z.1).2 ⟨hzp, z.2, hz, ?_⟩
            obtain ⟨aff, hn⟩ := (across_iff_via hP.adj).1 hac
            obtain ⟨k1, e1', hk1, _, hgl1⟩ := he
            obtain ⟨k2, e2', hk2, _, hgl2⟩ := hel2
            exact ⟨aff, _, _, e1', e2', hn, hgl1, List.mem_of_getElem? hk1, hgl2, List.mem_of_getElem? hk2⟩
          exact ⟨.tag (.partition z.1), List.mem_cons_of_mem _ (List.mem_append_right _ (List.mem_map.2 ⟨_, hzq, rfl⟩)),
            (mQ z.1 z.2 hz el f).2 ⟨Ne.symm hzp, e, j, e2, f2, el2, he, hel2, hac⟩⟩
      · obtain ⟨t, ht, rfl⟩ := List.mem_map.1 hs'
        exact ⟨.tag t, List.mem_cons_of_mem _ (List.mem_append_left _ (List.mem_map.2 ⟨t, ht, rfl⟩)),
          (mT t ht el f).2 ⟨e, he, hx⟩⟩
    · rintro ⟨s, hs', hx⟩
      rcases List.mem_cons.1 hs' with rfl | hs'
      · obtain ⟨j, el', f', h3⟩ := (mem_groupFaces_interior hfg' _ _ _ _).1 hx
        obtain ⟨grp2, h4, h5, h6⟩ := ok'.valid _ _ _ _ _ _ h3
        rw [hg'] at h4
        obtain rfl := Option.some.inj h4
        exact ⟨h5, h6⟩
      rcases List.mem_append.1 hs' with hs' | hs'
      · obtain ⟨t, ht, rfl⟩ := List.mem_map.1 hs'
        obtain ⟨e, h1, h2⟩ := (mT t ht el f).1 hx
        obtain ⟨r1, r2, r3⟩ := hrange h1
        have := (c3 e f).2 ⟨_, List.mem_cons_of_mem _ (List.mem_map.2 ⟨t, ht, rfl⟩), h2⟩
        exact ⟨r2, by rw [r3]; exact this.2⟩
      · obtain ⟨q, hq, rfl⟩ := List.mem_map.1 hs'
        obtain ⟨_, selq, hsq⟩ := hqp q hq
        exact (C102_side hP hp (hM _ hsq)).valid g grp' fg' hg' hfg' _ hx

/-- C103: on a part, faces can be restricted to the boundary with part `q` exactly if `q` is a connected part, and to
another tag exactly if the whole mesh has the tag. -/
theorem C103_defined [DecidableEq A] (hP : Partitioned m parts)
    (hentry : ∀ l ∈ m.fags, HasEntry l .none ∧ HasEntry l .all ∧ HasEntry l .reallyAll)
    (hp : getMeshPart m parts p = .ok pm) {qs : List Nat} (hqs : getConnectedParts (some pm.fags) = some qs)
    (perFace : Bool) (un : Nat → Nat → U) (res : Nat → Nat → N → M) (nv : Nat) :
    (∀ q ∈ parts.map Prod.fst, (∃ qm, getMeshPart m parts q = .ok qm) →
      ((makeFaceRestriction perFace un res (.tag (.partition q)) nv pm.groups pm.fags).isSome ↔ q ∈ qs)) ∧
    ∀ t, (∀ q, t ≠ .partition q) →
      ((makeFaceRestriction perFace un res (.tag t) nv pm.groups pm.fags).isSome ↔ TagExists m.fags t) := by
  have hdef : ∀ t, (makeFaceRestriction perFace un res (.tag t) nv pm.groups pm.fags).isSome ↔ TagExists pm.fags t := by
    intro t
    rw [← not_iff_not, Option.not_isSome_iff_eq_none, C27_defined]
    simp
  obtain ⟨selp, hselp, _⟩ := C09_part_elements hP.ids hP.sorted hp
  obtain ⟨pidx, required, hs, hv⟩ := hP.spec hp hselp
  constructor
  · rintro q _ ⟨qm, hqm⟩
    rw [hdef, (C69_exact hqs).2]
    have side := C102_side hP hp hqm
    constructor
    · rintro ⟨l, hl, fg, hfg, fs, hb⟩
      obtain ⟨ig, t', rows, aff, rfl⟩ := (side.tagged l hl fg hfg).1 ⟨fs, hb⟩
      exact ⟨l, hl, ig, t', rows, aff, hfg⟩
    · rintro ⟨l, hl, ig, t', rows, aff, hfg⟩
      obtain ⟨fs, hb⟩ := (side.tagged l hl _ hfg).2 ⟨_, _, _, _, rfl⟩
      exact ⟨l, hl, _, hfg, fs, hb⟩
  · intro t ht
    rw [hdef]
    constructor
    · rintro ⟨l', hl', fg, hfg, fs, hb⟩
      obtain ⟨g, hg⟩ := List.mem_iff_getElem?.1 hl'
      obtain ⟨l, hl, hfl⟩ := Option.map_eq_some_iff.1 ((part_fags_getElem? hs g).symm.trans hg)
      have hlm := List.mem_of_getElem? hl
      subst hfl
      obtain ⟨⟨fgn, e1, fsn, b1⟩, ⟨fga, e2, fsa, b2⟩, ⟨fgr, e3, fsr, b3⟩⟩ := hentry l hlm
      rcases mem_completeGroup.1 hfg with hfg | ⟨_, rfl⟩ | ⟨_, rfl⟩ | ⟨_, rfl⟩
      · rw [List.mem_append, List.mem_append] at hfg
        rcases hfg with (hfg | hfg) | hfg
        · rw [not_interPart_selfToSelf hfg] at hb; simp at hb
        · obtain ⟨_, _, _, _, q, _, _, rfl, _⟩ := mem_selfToOther.1 hfg
          simp only [Fag.bdry?, Option.some.injEq, Prod.mk.injEq] at hb
          exact absurd hb.1.symm (ht _)
        · simp only [partBoundaryGroups, List.mem_map, List.mem_filterMap] at hfg
          obtain ⟨⟨t', fs'⟩, ⟨fg0, h1, h2⟩, rfl⟩ := hfg
          simp only [Fag.bdry?, Option.some.injEq, Prod.mk.injEq] at hb
          obtain ⟨rfl, _⟩ := hb
          exact ⟨l, hlm, fg0, h1, fs', h2⟩
      all_goals
        simp only [Fag.bdry?, Option.some.injEq, Prod.mk.injEq] at hb
        obtain ⟨rfl, _⟩ := hb
      · exact ⟨l, hlm, _, e1, _, b1⟩
      · exact ⟨l, hlm, _, e2, _, b2⟩
      · exact ⟨l, hlm, _, e3, _, b3⟩
    · rintro ⟨l, hl, fg, hfg, fs, hb⟩
      obtain ⟨g, hg⟩ := List.mem_iff_getElem?.1 hl
      have hg' := part_fags_getElem? hs g
      rw [hg, Option.map_some] at hg'
      refine ⟨_, List.mem_of_getElem? hg', ?_⟩
      obtain ⟨fg', h1, fs', h2⟩ := hasEntry_partBoundary (m := m) (table := globalElemToPart (nelements m.sizes) parts)
        (self := pidx) (sb := selfGroupBase pm.sizes) (i := g) (⟨fg, hfg, fs, hb⟩ : HasEntry l t)
      exact ⟨fg', mem_completeGroup.2 (Or.inl (List.mem_append_right _ h1)), fs', h2⟩

end

/-! ## Example -/

theorem exTraces_entry : ∀ l ∈ exPartMesh.fags, HasEntry l .none ∧ HasEntry l .all ∧ HasEntry l .reallyAll := by
  simp only [hasEntry_iff]
  decide +kernel

/-- Non-vacuity of C103: the faces of three segments in two groups are covered by the interior faces and `BTAG_ALL`, also
by the interior faces and `BTAG_REALLY_ALL`. -/
theorem exTraces_covered : FacesCovered [.interior, .tag .all] exPartMesh.groups exPartMesh.fags ∧
    FacesCovered [.interior, .tag .reallyAll] exPartMesh.groups exPartMesh.fags := by
  have key : ∀ s ∈ [FaceSel.tag .all, .tag .reallyAll], ((exPartMesh.groups.zip exPartMesh.fags).all fun p =>
      ([FaceSel.interior, s].flatMap fun s => groupFaces s p.1.nelements p.1.nfaces p.2).isPerm
        (groupFaces .all p.1.nelements p.1.nfaces p.2)) = true := by decide +kernel
  have main : ∀ s ∈ [FaceSel.tag .all, .tag .reallyAll],
      FacesCovered [.interior, s] exPartMesh.groups exPartMesh.fags := by
    intro s hs g grp fg hg hfg
    have h := List.all_eq_true.1 (key s hs) (grp, fg)
      (List.mem_of_getElem? (List.getElem?_zip_eq_some.2 ⟨hg, hfg⟩))
    exact List.isPerm_iff.1 h
  exact ⟨main _ (by decide), main _ (by decide)⟩

/-- Part 7 of the example is connected to part 8; its interior faces, `BTAG_ALL` and the boundary with part 8 are all its
faces. -/
example : FacesCovered [.interior, .tag .all, .tag (.partition 8)] (exExchangePart 7).groups (exExchangePart 7).fags :=
  C103_part exExchange_partitioned exTraces_entry exExchange_made (ts := [.all]) (by decide) (by
    intro t ht q
    rw [List.mem_singleton] at ht
    rw [ht]
    exact fun h => nomatch h) exTraces_covered.1 (p := 7) (selp := [0, 1]) (by decide) (qs := [8]) (by decide +kernel)

/-- One of the traces of part 7, embedded: the data are 10 and 11 on the elements, with one node per element.
(Example, no code.) -/
def exTraceEmb (sel : FaceSel) : Option (DofArr ℤ) := do
  let mk := fun (els : List (Option (BdryEl (Nat × Nat)))) =>
    (⟨els.length, 1, fun _ _ _ => 1, fun _ => none⟩ : DGroup ℤ Unit)
  let m := exExchangePart 7
  let volD := m.groups.map fun g => (⟨g.nelements, 1, fun _ _ _ => 1, fun _ => none⟩ : DGroup ℤ Unit)
  let ra ← makeFaceRestriction false (fun _ _ => ()) (fun _ f n => (f, n)) .all 4 m.groups m.fags
  let r ← makeFaceRestriction false (fun _ _ => ()) (fun _ f n => (f, n)) sel 4 m.groups m.fags
  let c ← faceEmbedding (m.groups.map fun g => (g.nelements, g.nfaces)) r.batches (r.groups.map mk) (ra.groups.map mk)
    (r.groups.map fun _ => ()) (ra.groups.map fun _ => ())
  let v ← (DirectConn.mk volD (r.groups.map mk) r.batches true).call false fun _ e _ => 10 + e
  c.call false v

/-- Its values on the four faces of the two elements. (Example, no code.) -/
def exTraceVals (sel : FaceSel) : Option (List ℤ) :=
  (exTraceEmb sel).map fun u => (List.range 4).map fun n => u 0 n 0

example : exTraceVals .interior = some [0, 11, 10, 0] := by decide +kernel

example : exTraceVals (.tag .all) = some [10, 0, 0, 0] := by decide +kernel

example : exTraceVals (.tag (.partition 8)) = some [0, 0, 0, 11] := by decide +kernel

example : exTraceVals .all = some [10, 11, 10, 11] := by decide +kernel

end Meshmode
