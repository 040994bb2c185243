import Verif.Connection.Face
import Verif.Connection.Flatten

/-!
# Embedding of face values into all faces (C28)

`make_face_to_all_faces_embedding` (meshmode/discretization/connection/face.py).
-/
namespace Meshmode

open Finset

variable {R U N M A : Type}

/-! ## Model -/

/-- The batch inserting the elements of a batch of the face restriction,
meshmode/discretization/connection/face.py:472-491: `shift` is zero with `per_face_groups` and
`vol_grp.nelements*iface` otherwise. -/
def embBatch (i shift : Nat) (u : U) (b : Batch U) : Batch U where
  fromGroup := i
  fromEls := b.toEls
  toEls := b.fromEls.map (shift + ·)
  nodes := u
  face := none

/-- The loop over volume groups, meshmode/discretization/connection/face.py:441-499; `vol` are the numbers of
elements and faces, `i` is `i_faces_grp`.  `none` if an assertion fails or an index is not valid. -/
def embGo [DecidableEq U] (perFace : Bool) (fc : List (List (Batch U))) (allNel : List Nat)
    (fromUnit allUnit : List U) : List (Nat × Nat) → Nat → Option (List (List (Batch U)))
  | [], _ => some []
  | (nel, nf) :: rest, i =>
    if perFace then do
      let gs ← (List.range nf).mapM fun f =>
        match fc[i + f]?, fromUnit[i + f]?, allUnit[i + f]? with
        | some [b], some u', some u => if u' = u then some [embBatch (i + f) 0 u b] else none
        | _, _, _ => none
      let r ← embGo perFace fc allNel fromUnit allUnit rest (i + nf)
      some (gs ++ r)
    else if nf = 0 then embGo perFace fc allNel fromUnit allUnit rest i
    else
      match fc[i]?, fromUnit[i]?, allUnit[i]?, allNel[i]? with
      | some bs, some u', some u, some an =>
        if u' = u ∧ bs.length = nf ∧ an = nf * nel then do
          let r ← embGo perFace fc allNel fromUnit allUnit rest (i + 1)
          some ((bs.zipIdx.map fun p => embBatch i (nel * p.2) u p.1) :: r)
        else none
      | _, _, _, _ => none

/-- `make_face_to_all_faces_embedding`, meshmode/discretization/connection/face.py:390-505: `vol` are the
numbers of elements and faces of the volume groups, `fc` the batches of the face restriction, `facesD` and
`allD` the two face discretizations with their unit nodes.  `none` if it raises. -/
def faceEmbedding [DecidableEq U] (vol : List (Nat × Nat)) (fc : List (List (Batch U)))
    (facesD allD : List (DGroup R U)) (fromUnit allUnit : List U) : Option (DirectConn R U) :=
  let perFace := vol.length != facesD.length
  if facesD.length ≠ allD.length ∨ fc.length ≠ allD.length then none
  else (embGo perFace fc (allD.map DGroup.nel) fromUnit allUnit vol 0).map fun gs =>
    ⟨facesD, allD, gs, false⟩

/-! ## Lemmas -/

theorem mapM_range_getElem? {α : Type} (F : Nat → Option α) (n : Nat) {l : List α}
    (h : (List.range n).mapM F = some l) : l.length = n ∧ ∀ k < n, l[k]? = F k := by
  obtain ⟨h1, h2⟩ := mapM_getElem?_some h
  refine ⟨by simpa using h1, ?_⟩
  intro k hk
  obtain ⟨b, hb, hb'⟩ := h2 k k (by simp [hk])
  rw [hb, hb']

/-- Groups of the embedding: with `per_face_groups`. -/
theorem embGo_perFace [DecidableEq U] {fc : List (List (Batch U))} {allNel : List Nat}
    {fromUnit allUnit : List U} {vol : List (Nat × Nat)} {i : Nat} {gs : List (List (Batch U))}
    (h : embGo true fc allNel fromUnit allUnit vol i = some gs) {g nel nf f : Nat}
    (hg : vol[g]? = some (nel, nf)) (hf : f < nf) :
    ∃ b u, fc[i + (((vol.map Prod.snd).take g).sum + f)]? = some [b] ∧
      fromUnit[i + (((vol.map Prod.snd).take g).sum + f)]? = some u ∧
      gs[((vol.map Prod.snd).take g).sum + f]? =
        some [embBatch (i + (((vol.map Prod.snd).take g).sum + f)) 0 u b] := by
  induction vol generalizing i gs g with
  | nil => simp at hg
  | cons v rest ih =>
    obtain ⟨nel0, nf0⟩ := v
    simp only [embGo, if_true, Option.bind_eq_bind, Option.bind_eq_some_iff, Option.some.injEq] at h
    obtain ⟨gs0, h0, r, hr, rfl⟩ := h
    obtain ⟨hl, hk⟩ := mapM_range_getElem? _ _ h0
    cases g with
    | zero =>
      simp only [List.getElem?_cons_zero, Option.some.injEq, Prod.mk.injEq] at hg
      obtain ⟨rfl, rfl⟩ := hg
      simp only [List.take_zero, List.sum_nil, Nat.zero_add]
      rw [List.getElem?_append_left (by omega)]
      have h3 := hk f hf
      have h4 : gs0[f]? = some gs0[f] := List.getElem?_eq_getElem (by omega)
      rw [h4] at h3
      split at h3
      · rename_i b u' u hb hu' hu
        split at h3
        · rename_i heq
          subst heq
          exact ⟨b, u', hb, hu', by rw [h4]; exact h3⟩
        · simp at h3
      · simp at h3
    | succ g =>
      simp only [List.getElem?_cons_succ] at hg
      obtain ⟨b, u, h1, h2, h3⟩ := ih hr hg
      have he : ((((nel0, nf0) :: rest).map Prod.snd).take (g + 1)).sum + f =
          nf0 + (((rest.map Prod.snd).take g).sum + f) := by
        simp [Nat.add_assoc]
      rw [he, ← Nat.add_assoc i nf0]
      refine ⟨b, u, h1, h2, ?_⟩
      rw [List.getElem?_append_right (by omega), hl, Nat.add_sub_cancel_left, h3]

/-- Groups of the embedding: without `per_face_groups`. -/
theorem embGo_shared [DecidableEq U] {fc : List (List (Batch U))} {allNel : List Nat}
    {fromUnit allUnit : List U} {vol : List (Nat × Nat)} {i : Nat} {gs : List (List (Batch U))}
    (h : embGo false fc allNel fromUnit allUnit vol i = some gs) (hnf : ∀ v ∈ vol, 0 < v.2)
    {g nel nf : Nat} (hg : vol[g]? = some (nel, nf)) :
    ∃ bs u, fc[i + g]? = some bs ∧ bs.length = nf ∧ fromUnit[i + g]? = some u ∧
      gs[g]? = some (bs.zipIdx.map fun p => embBatch (i + g) (nel * p.2) u p.1) := by
  induction vol generalizing i gs g with
  | nil => simp at hg
  | cons v rest ih =>
    obtain ⟨nel0, nf0⟩ := v
    have hpos : 0 < nf0 := hnf (nel0, nf0) (by simp)
    simp only [embGo, Bool.false_eq_true, if_false, if_neg (show nf0 ≠ 0 by omega)] at h
    split at h
    · rename_i bs u' u an h1 h2 h3 h4
      split at h
      · rename_i hc
        obtain ⟨rfl, hl, _⟩ := hc
        simp only [Option.bind_eq_bind, Option.bind_eq_some_iff, Option.some.injEq] at h
        obtain ⟨r, hr, rfl⟩ := h
        cases g with
        | zero =>
          simp only [List.getElem?_cons_zero, Option.some.injEq, Prod.mk.injEq] at hg
          obtain ⟨rfl, rfl⟩ := hg
          exact ⟨bs, u', h1, hl, h2, rfl⟩
        | succ g =>
          simp only [List.getElem?_cons_succ] at hg
          obtain ⟨bs', u'', h5, h6, h7, h8⟩ := ih hr (fun v hv => hnf v (by simp [hv])) hg
          rw [show i + 1 + g = i + (g + 1) by omega] at h5 h7 h8
          exact ⟨bs', u'', h5, h6, h7, by simpa using h8⟩
      · simp at h
    · simp at h

theorem sum_map_single {R : Type} [AddCommMonoid R] {α : Type} (bs : List α) (F : α → R) (k : Nat) (b : α)
    (hb : bs[k]? = some b) (h : ∀ (k' : Nat) b', bs[k']? = some b' → k' ≠ k → F b' = 0) :
    (bs.map F).sum = F b := by
  induction bs generalizing k with
  | nil => simp at hb
  | cons a bs ih =>
    cases k with
    | zero =>
      simp only [List.getElem?_cons_zero, Option.some.injEq] at hb
      subst hb
      have : (bs.map F).sum = 0 := by
        apply List.sum_eq_zero
        intro x hx
        obtain ⟨c, hc, rfl⟩ := List.mem_map.1 hx
        obtain ⟨j, hj⟩ := List.mem_iff_getElem?.1 hc
        exact h (j + 1) c (by simpa using hj) (by omega)
      simp [this]
    | succ k =>
      have h0 := h 0 a (by simp) (by omega)
      rw [List.map_cons, List.sum_cons, h0, zero_add]
      exact ih k (by simpa using hb) fun k' b' hk' hne => h (k' + 1) b' (by simpa using hk') (by omega)

section values
variable [CommRing R]

omit [CommRing R] in
/-- The embedding's batches of one group, flattened: requested elements at their all-faces numbers. -/
theorem mem_embBatch_pairs (i shift : Nat) (u : U) (b : Batch U) (e n : Nat) :
    (e, n) ∈ (embBatch i shift u b).pairs ↔ ∃ el, e = shift + el ∧ (n, el) ∈ b.toEls.zip b.fromEls := by
  unfold Batch.pairs embBatch
  simp only
  constructor
  · intro h
    obtain ⟨k, hk⟩ := List.mem_iff_getElem?.1 h
    obtain ⟨h1, h2⟩ := (List.getElem?_zip_eq_some (z := (e, n))).1 hk
    rw [List.getElem?_map] at h1
    obtain ⟨el, h3, h4⟩ := Option.map_eq_some_iff.1 h1
    exact ⟨el, h4.symm, List.mem_iff_getElem?.2 ⟨k, (List.getElem?_zip_eq_some (z := (n, el))).2 ⟨h2, h3⟩⟩⟩
  · rintro ⟨el, rfl, h⟩
    obtain ⟨k, hk⟩ := List.mem_iff_getElem?.1 h
    obtain ⟨h1, h2⟩ := (List.getElem?_zip_eq_some (z := (n, el))).1 hk
    exact List.mem_iff_getElem?.2 ⟨k, (List.getElem?_zip_eq_some (z := (shift + el, n))).2
      ⟨by rw [List.getElem?_map, h2]; rfl, h1⟩⟩

/-- Values on faces: a restriction takes to boundary element `n`, the one for `(el, f)`, the interpolation of
the values on element `el` to the nodes of face `f`. -/
theorem C27_value {perFace : Bool} {un : Nat → Nat → U} {res : Nat → Nat → N → M}
    {sel : FaceSel} {nv : Nat} {groups : List (ElGroup N)} {fags : List (List (Fag A))}
    {r : FaceRestr M U} (h : makeFaceRestriction perFace un res sel nv groups fags = some r)
    (hlen : groups.length = fags.length) (hnf : perFace = false → ∀ g ∈ groups, 0 < g.nfaces)
    {volD toD : List (DGroup R U)} {sj merge : Bool} {w v : DofArr R}
    (hs : ∀ d ∈ volD, PickSound d)
    (hcall : (DirectConn.mk volD toD r.batches sj).call merge w = some v)
    {g f : Nat} {grp : ElGroup N} {fg : List (Fag A)} {d : DGroup R U}
    (hg : groups[g]? = some grp) (hfg : fags[g]? = some fg) (hd : volD[g]? = some d)
    (hnel : d.nel = grp.nelements) (hf : f < grp.nfaces)
    (hreq : ∀ ef ∈ groupFaces sel grp.nelements grp.nfaces fg, ef.face < grp.nfaces ∧
      ef.el < grp.nelements)
    {nt : Nat} (hpick : ∀ f I, d.pick (un g f) = some I → I.length = nt) {n el i : Nat} (hi : i < nt)
    (hn : (origins perFace grp.nfaces (groupFaces sel grp.nelements grp.nfaces fg) f)[n]? =
      some ⟨el, f⟩) :
    v (bdryGroupNr perFace (groups.map ElGroup.nfaces) g f) n i =
      ∑ j ∈ range d.ndof, d.mat (un g f) i j * w g el j := by
  obtain ⟨bs, els, h1, h2, h3⟩ := C27_targets h hlen hnf hg hfg hf fun ef hef => (hreq ef hef).1
  obtain ⟨bs', b, h1', h4, h4', h5, h6, h7, h8, h9, h10, h11⟩ := C27_batches h hlen hnf hg hfg hf
  rw [h1] at h1'
  cases h1'
  have hbs : ∀ b' ∈ bs, b'.fromGroup = g ∧ (∃ f' < grp.nfaces, b'.nodes = un g f') ∧
      ∀ e ∈ b'.fromEls, e < d.nel := by
    intro b' hb'
    obtain ⟨k, hk⟩ := List.mem_iff_getElem?.1 hb'
    have hkl := (List.getElem?_eq_some_iff.1 hk).1
    cases hpf : perFace with
    | true =>
      subst hpf
      simp only [if_true] at h4 h4'
      have : k = 0 := by omega
      subst this
      rw [h4] at hk
      cases hk
      refine ⟨h5, ⟨f, hf, h7⟩, ?_⟩
      intro e he
      rw [h10] at he
      obtain ⟨ef, hef, rfl⟩ := List.mem_map.1 he
      rw [hnel]
      exact (hreq ef (List.mem_of_mem_filter hef)).2
    | false =>
      subst hpf
      simp only [Bool.false_eq_true, if_false] at h4 h4'
      obtain ⟨bs2, b2, k1, k4, _, k5, _, k7, _, _, k10, _⟩ :=
        C27_batches (f := k) h hlen hnf hg hfg (by omega)
      simp only [bdryGroupNr, Bool.false_eq_true, if_false] at k1 h1
      rw [h1] at k1
      cases k1
      simp only [Bool.false_eq_true, if_false] at k4
      rw [hk] at k4
      cases k4
      refine ⟨k5, ⟨k, by omega, k7⟩, ?_⟩
      intro e he
      rw [k10] at he
      obtain ⟨ef, hef, rfl⟩ := List.mem_map.1 he
      rw [hnel]
      exact (hreq ef (List.mem_of_mem_filter hef)).2
  have hgc := call_getElem hcall (t := bdryGroupNr perFace (groups.map ElGroup.nfaces) g f) h1
  rw [groupCall_eq hs ?_ hgc n hi]
  · have hmem : b ∈ bs := List.mem_of_getElem? h4
    rw [interp_sum_of_mem (h3 ▸ List.nodup_range) hmem (e := n) (f := el) ((h11 n el).2 hn)
      (g := d) (by rw [h5]; exact hd) w i, h5, h7]
  · intro b' hb'
    obtain ⟨q1, ⟨f', _, q2⟩, q3⟩ := hbs b' hb'
    refine ⟨d, by rw [q1]; exact hd, q3, ?_⟩
    intro I hI
    rw [q2] at hI
    exact hpick f' I hI

/-- The requested faces are faces of the mesh, each requested once.
(Specification or proof vocabulary, no code.) -/
def ReqOK (sel : FaceSel) (groups : List (ElGroup N)) (fags : List (List (Fag A))) : Prop :=
  ∀ (g : Nat) grp fg, groups[g]? = some grp → fags[g]? = some fg →
    (∀ ef ∈ groupFaces sel grp.nelements grp.nfaces fg, ef.face < grp.nfaces ∧ ef.el < grp.nelements) ∧
    (groupFaces sel grp.nelements grp.nfaces fg).Nodup

/-- Number of the all-faces element for face `f` of element `el`.
(Specification or proof vocabulary, no code.) -/
def allFacesNr (perFace : Bool) (nel f el : Nat) : Nat := if perFace then el else nel * f + el

omit [CommRing R] in
theorem faceEls_nodup {faces : List ElFace} (h : faces.Nodup) (f : Nat) : (faceEls faces f).Nodup := by
  unfold faceEls
  rw [List.nodup_map_iff_inj_on (h.filter _)]
  intro a ha b hb hab
  have h1 : a.face = f := by simpa using (List.mem_filter.1 ha).2
  have h2 : b.face = f := by simpa using (List.mem_filter.1 hb).2
  cases a
  cases b
  simp_all

omit [CommRing R] in
/-- The batches of an embedding. -/
theorem faceEmbedding_batches [DecidableEq U] {perFace : Bool} {un : Nat → Nat → U}
    {res : Nat → Nat → N → M} {sel : FaceSel} {nv : Nat} {groups : List (ElGroup N)}
    {fags : List (List (Fag A))} {r : FaceRestr M U}
    (h : makeFaceRestriction perFace un res sel nv groups fags = some r)
    (hlen : groups.length = fags.length) (hnf : ∀ g ∈ groups, 1 < g.nfaces)
    (hreq : ReqOK sel groups fags)
    {facesD allD : List (DGroup R U)} {fromUnit allUnit : List U} {c : DirectConn R U}
    (he : faceEmbedding (groups.map fun g => (g.nelements, g.nfaces)) r.batches facesD allD fromUnit
      allUnit = some c)
    {g f : Nat} {grp : ElGroup N} {fg : List (Fag A)} (hg : groups[g]? = some grp)
    (hfg : fags[g]? = some fg) (hf : f < grp.nfaces) :
    c.fromD = facesD ∧ c.toD = allD ∧
    ∃ bs u, c.groups[bdryGroupNr perFace (groups.map ElGroup.nfaces) g f]? = some bs ∧
      fromUnit[bdryGroupNr perFace (groups.map ElGroup.nfaces) g f]? = some u ∧
      (bs.flatMap Batch.toEls).Nodup ∧
      (∀ b ∈ bs, b.fromGroup = bdryGroupNr perFace (groups.map ElGroup.nfaces) g f ∧ b.nodes = u ∧
        ∀ n ∈ b.fromEls, n < (origins perFace grp.nfaces
          (groupFaces sel grp.nelements grp.nfaces fg) f).length) ∧
      (∀ el n, (origins perFace grp.nfaces (groupFaces sel grp.nelements grp.nfaces fg) f)[n]? =
        some ⟨el, f⟩ → ∃ b ∈ bs, (allFacesNr perFace grp.nelements f el, n) ∈ b.pairs) ∧
      ∀ el < grp.nelements, allFacesNr perFace grp.nelements f el ∈ bs.flatMap Batch.toEls →
        ⟨el, f⟩ ∈ groupFaces sel grp.nelements grp.nfaces fg := by
  have hnf' : perFace = false → ∀ g ∈ groups, 0 < g.nfaces := fun _ g hg => by
    have := hnf g hg; omega
  obtain ⟨hr1, hr2⟩ := hreq g grp fg hg hfg
  obtain ⟨hc1, hc2⟩ := C27_group_count h hlen hnf'
  unfold faceEmbedding at he
  simp only [Option.ite_none_left_eq_some, not_or, not_not] at he
  obtain ⟨⟨hl1, hl2⟩, he⟩ := he
  obtain ⟨gs, hgs, rfl⟩ := Option.map_eq_some_iff.1 he
  have hflag : ((groups.map fun g => (g.nelements, g.nfaces)).length != facesD.length) = perFace := by
    rw [hl1, ← hl2, hc2, hc1, List.length_map]
    cases perFace with
    | false => simp
    | true =>
      simp only [if_true, bne_iff_ne]
      have key : ∀ l : List (ElGroup N), (∀ g ∈ l, 1 < g.nfaces) → l ≠ [] →
          l.length < (l.map ElGroup.nfaces).sum := by
        intro l
        induction l with
        | nil => intro _ h; exact absurd rfl h
        | cons a l ih =>
          intro hl _
          have := hl a (by simp)
          by_cases hl0 : l = []
          · subst hl0; simpa using this
          · have := ih (fun g hg => hl g (by simp [hg])) hl0
            simp only [List.length_cons, List.map_cons, List.sum_cons]
            omega
      have := key groups hnf (by rintro rfl; simp at hg)
      omega
  rw [hflag] at hgs
  refine ⟨rfl, rfl, ?_⟩
  have hvol : (groups.map fun g => (g.nelements, g.nfaces))[g]? = some (grp.nelements, grp.nfaces) := by
    rw [List.getElem?_map, hg]; rfl
  obtain ⟨bs0, b0, k1, k4, k4', k5, k6, k7, k8, k9, k10, k11⟩ := C27_batches h hlen hnf' hg hfg hf
  generalize hfaces : groupFaces sel grp.nelements grp.nfaces fg = faces at *
  cases perFace with
  | true =>
    have hm : (groups.map fun g => (g.nelements, g.nfaces)).map Prod.snd = groups.map ElGroup.nfaces := by
      rw [List.map_map]; rfl
    obtain ⟨b, u, h1, h2, h3⟩ := embGo_perFace hgs hvol hf
    rw [hm, Nat.zero_add] at h1 h2 h3
    simp only [bdryGroupNr, if_true] at k1 ⊢
    rw [h1] at k1
    cases k1
    simp only [if_true, List.getElem?_cons_zero, Option.some.injEq] at k4
    subst k4
    refine ⟨_, u, h3, h2, ?_, ?_, ?_, ?_⟩
    · simp only [List.flatMap_cons, List.flatMap_nil, List.append_nil, embBatch, k10]
      refine List.Nodup.map ?_ ?_
      · intro a b hab
        simpa using hab
      · exact faceEls_nodup hr2 f
    · intro b' hb'
      rw [List.mem_singleton] at hb'
      subst hb'
      refine ⟨rfl, rfl, ?_⟩
      intro n hn
      obtain ⟨k, hk⟩ := List.mem_iff_getElem?.1 (show n ∈ b.toEls from hn)
      have hkl := (List.getElem?_eq_some_iff.1 hk).1
      have : (n, b.fromEls[k]'(by omega)) ∈ b.toEls.zip b.fromEls :=
        List.mem_iff_getElem?.2 ⟨k, (List.getElem?_zip_eq_some (z := (n, _))).2
          ⟨hk, List.getElem?_eq_getElem (by omega)⟩⟩
      exact (List.getElem?_eq_some_iff.1 ((k11 _ _).1 this)).1
    · intro el n hn
      refine ⟨_, List.mem_singleton.2 rfl, ?_⟩
      rw [mem_embBatch_pairs]
      exact ⟨el, by simp [allFacesNr], (k11 n el).2 hn⟩
    · intro el _ hel
      simp only [allFacesNr, if_true, List.flatMap_cons, List.flatMap_nil, List.append_nil, embBatch,
        Nat.zero_add, List.map_id', k10] at hel
      obtain ⟨ef, hef, rfl⟩ := List.mem_map.1 hel
      obtain ⟨q1, q2⟩ := List.mem_filter.1 hef
      have : ef.face = f := by simpa using q2
      subst this
      exact q1
  | false =>
    obtain ⟨bs, u, h1, hl, h2, h3⟩ := embGo_shared hgs (by
      intro v hv
      obtain ⟨gr, hgr, rfl⟩ := List.mem_map.1 hv
      exact hnf' rfl gr hgr) hvol
    rw [Nat.zero_add] at h1 h2 h3
    simp only [bdryGroupNr, Bool.false_eq_true, if_false] at k1 ⊢
    rw [h1] at k1
    obtain rfl := Option.some.inj k1
    simp only [Bool.false_eq_true, if_false] at k4 k4'
    -- the batch of each face
    have hall : ∀ (k : Nat) b, bs[k]? = some b → k < grp.nfaces ∧ b.fromEls = faceEls faces k ∧
        b.fromEls.length = b.toEls.length ∧ ∀ n el, (n, el) ∈ b.toEls.zip b.fromEls ↔
          (origins false grp.nfaces faces k)[n]? = some ⟨el, k⟩ := by
      intro k b hk
      have hkl := (List.getElem?_eq_some_iff.1 hk).1
      obtain ⟨bs2, b2, q1, q4, _, _, _, _, q8, _, q10, q11⟩ :=
        C27_batches (f := k) h hlen hnf' hg hfg (by omega)
      simp only [bdryGroupNr, Bool.false_eq_true, if_false] at q1 q4
      rw [h1] at q1
      cases q1
      rw [hk] at q4
      cases q4
      rw [hfaces] at q10 q11
      exact ⟨by omega, q10, q8, q11⟩
    refine ⟨_, u, h3, h2, ?_, ?_, ?_, ?_⟩
    · rw [List.flatMap_map, List.nodup_flatMap]
      have hmem : ∀ p ∈ bs.zipIdx, p.1.fromEls = faceEls faces p.2 := by
        intro p hp
        rw [List.mem_zipIdx_iff_getElem?] at hp
        exact (hall _ _ hp).2.1
      constructor
      · intro p hp
        simp only [embBatch, hmem p hp]
        refine List.Nodup.map ?_ (faceEls_nodup hr2 _)
        intro a b hab
        simpa using hab
      · have hsnd : (bs.zipIdx.map Prod.snd).Nodup := by
          rw [List.zipIdx_map_snd]
          exact List.nodup_range'
        have hpw : bs.zipIdx.Pairwise fun p q => p.2 ≠ q.2 := List.pairwise_map.1 hsnd
        refine List.Pairwise.imp_of_mem ?_ hpw
        intro p q hp hq hne x hx hx'
        simp only [embBatch, hmem p hp, hmem q hq] at hx hx'
        obtain ⟨e1, m1, rfl⟩ := List.mem_map.1 hx
        obtain ⟨e2, m2, hx2⟩ := List.mem_map.1 hx'
        have l1 : e1 < grp.nelements := by
          obtain ⟨ef, hef, rfl⟩ := List.mem_map.1 m1
          exact (hr1 ef (List.mem_of_mem_filter hef)).2
        have l2 : e2 < grp.nelements := by
          obtain ⟨ef, hef, rfl⟩ := List.mem_map.1 m2
          exact (hr1 ef (List.mem_of_mem_filter hef)).2
        apply hne
        have d1 : (grp.nelements * p.2 + e1) / grp.nelements = p.2 := by
          rw [Nat.mul_add_div (by omega), Nat.div_eq_of_lt l1, Nat.add_zero]
        have d2 : (grp.nelements * q.2 + e2) / grp.nelements = q.2 := by
          rw [Nat.mul_add_div (by omega), Nat.div_eq_of_lt l2, Nat.add_zero]
        rw [← d1, ← d2, ← hx2]
    · intro b' hb'
      obtain ⟨p, hp, rfl⟩ := List.mem_map.1 hb'
      rw [List.mem_zipIdx_iff_getElem?] at hp
      obtain ⟨_, _, q3, q4⟩ := hall _ _ hp
      refine ⟨rfl, rfl, ?_⟩
      intro n hn
      obtain ⟨k, hk⟩ := List.mem_iff_getElem?.1 (show n ∈ p.1.toEls from hn)
      have hkl := (List.getElem?_eq_some_iff.1 hk).1
      have : (n, p.1.fromEls[k]'(by omega)) ∈ p.1.toEls.zip p.1.fromEls :=
        List.mem_iff_getElem?.2 ⟨k, (List.getElem?_zip_eq_some (z := (n, _))).2
          ⟨hk, List.getElem?_eq_getElem (by omega)⟩⟩
      exact (List.getElem?_eq_some_iff.1 ((q4 _ _).1 this)).1
    · intro el n hn
      refine ⟨embBatch g (grp.nelements * f) u b0, List.mem_map.2 ⟨(b0, f),
        List.mem_zipIdx_iff_getElem?.2 k4, rfl⟩, ?_⟩
      rw [mem_embBatch_pairs]
      exact ⟨el, by simp [allFacesNr], (k11 n el).2 hn⟩
    · intro el hel hmem
      rw [List.flatMap_map] at hmem
      obtain ⟨p, hp, hx⟩ := List.mem_flatMap.1 hmem
      rw [List.mem_zipIdx_iff_getElem?] at hp
      obtain ⟨_, q2, _, _⟩ := hall _ _ hp
      simp only [embBatch, allFacesNr, Bool.false_eq_true, if_false, q2] at hx
      obtain ⟨e1, m1, hx2⟩ := List.mem_map.1 hx
      obtain ⟨ef, hef, rfl⟩ := List.mem_map.1 m1
      obtain ⟨q5, q6⟩ := List.mem_filter.1 hef
      have l1 := (hr1 ef q5).2
      have hfp : p.2 = f := by
        have d1 : (grp.nelements * p.2 + ef.el) / grp.nelements = p.2 := by
          rw [Nat.mul_add_div (by omega), Nat.div_eq_of_lt l1, Nat.add_zero]
        have d2 : (grp.nelements * f + el) / grp.nelements = f := by
          rw [Nat.mul_add_div (by omega), Nat.div_eq_of_lt hel, Nat.add_zero]
        rw [← d1, ← d2, hx2]
      rw [hfp] at hx2 q6
      have he : ef.el = el := by omega
      have hf' : ef.face = f := by simpa using q6
      subst he hf'
      exact q5

/-- C28: the embedding puts the value of each requested face at the element of that face in the
discretization of all faces, and zero at all other faces. -/
theorem C28_embedding [DecidableEq U] {perFace : Bool} {un : Nat → Nat → U}
    {res : Nat → Nat → N → M} {sel : FaceSel} {nv : Nat} {groups : List (ElGroup N)}
    {fags : List (List (Fag A))} {r : FaceRestr M U}
    (h : makeFaceRestriction perFace un res sel nv groups fags = some r)
    (hlen : groups.length = fags.length) (hnf : ∀ g ∈ groups, 1 < g.nfaces)
    (hreq : ReqOK sel groups fags)
    {facesD allD : List (DGroup R U)} {fromUnit allUnit : List U} {c : DirectConn R U}
    (he : faceEmbedding (groups.map fun g => (g.nelements, g.nfaces)) r.batches facesD allD fromUnit
      allUnit = some c)
    (hs : ∀ d ∈ facesD, PickSound d)
    {merge : Bool} {v u : DofArr R} (hcall : c.call merge v = some u)
    {g f : Nat} {grp : ElGroup N} {fg : List (Fag A)} {d : DGroup R U} (hg : groups[g]? = some grp)
    (hfg : fags[g]? = some fg) (hf : f < grp.nfaces)
    (hd : facesD[bdryGroupNr perFace (groups.map ElGroup.nfaces) g f]? = some d)
    (hdn : d.nel = (origins perFace grp.nfaces (groupFaces sel grp.nelements grp.nfaces fg) f).length)
    (hown : ∀ un, fromUnit[bdryGroupNr perFace (groups.map ElGroup.nfaces) g f]? = some un →
      (∀ i < d.ndof, ∀ j < d.ndof, d.mat un i j = if i = j then 1 else 0) ∧
      ∀ I, d.pick un = some I → I.length = d.ndof)
    {el i : Nat} (hel : el < grp.nelements) (hi : i < d.ndof) :
    (∀ n, (origins perFace grp.nfaces (groupFaces sel grp.nelements grp.nfaces fg) f)[n]? =
      some ⟨el, f⟩ →
      u (bdryGroupNr perFace (groups.map ElGroup.nfaces) g f) (allFacesNr perFace grp.nelements f el) i =
      v (bdryGroupNr perFace (groups.map ElGroup.nfaces) g f) n i) ∧
    (⟨el, f⟩ ∉ groupFaces sel grp.nelements grp.nfaces fg →
      u (bdryGroupNr perFace (groups.map ElGroup.nfaces) g f) (allFacesNr perFace grp.nelements f el) i
        = 0) := by
  obtain ⟨hc1, hc2, bs, un', h1, h2, h3, h4, h5, h6⟩ :=
    faceEmbedding_batches h hlen hnf hreq he hg hfg hf
  generalize hT : bdryGroupNr perFace (groups.map ElGroup.nfaces) g f = T at *
  obtain ⟨w1, w2⟩ := hown un' h2
  have hgc := call_getElem hcall h1
  rw [hc1] at hgc
  have hval := fun e => groupCall_eq hs (nt := d.ndof) (by
    intro b hb
    obtain ⟨q1, q2, q3⟩ := h4 b hb
    refine ⟨d, by rw [q1]; exact hd, ?_, ?_⟩
    · rw [hdn]; exact q3
    · rw [q2]; exact w2) hgc e hi
  constructor
  · intro n hn
    obtain ⟨b, hb, hp⟩ := h5 el n hn
    obtain ⟨q1, q2, _⟩ := h4 b hb
    rw [hval, interp_sum_of_mem h3 hb hp (g := d) (by rw [q1]; exact hd), q1, q2]
    rw [Finset.sum_congr rfl (g := fun j => if i = j then v T n j else 0)]
    · rw [Finset.sum_ite_eq, if_pos (Finset.mem_range.2 hi)]
    · intro j hj
      rw [w1 i hi j (Finset.mem_range.1 hj)]
      split <;> simp
  · intro hnot
    rw [hval]
    exact interp_sum_none (fun hm => hnot (h6 el hel hm)) v i

omit [CommRing R] in
theorem mem_origins {perFace : Bool} {nf : Nat} {faces : List ElFace} {el f : Nat} (hf : f < nf)
    (h : ⟨el, f⟩ ∈ faces) : ∃ n : Nat, (origins perFace nf faces f)[n]? = some ⟨el, f⟩ := by
  apply List.mem_iff_getElem?.1
  cases perFace with
  | true => simpa [origins] using h
  | false =>
    simp only [origins, Bool.false_eq_true, if_false, byFace, List.mem_flatMap, List.mem_range,
      List.mem_filter]
    exact ⟨f, hf, h, by simp⟩

omit [CommRing R] in
theorem allFacesNr_origins {perFace : Bool} {nel nf el f : Nat} (fags : List (Fag A)) (hel : el < nel)
    (hf : f < nf) : (origins perFace nf (groupFaces .all nel nf fags) f)[allFacesNr perFace nel f el]? =
      some ⟨el, f⟩ := by
  obtain ⟨h1, h2, _⟩ := C27_all_numbers fags nel nf el f hel hf
  cases perFace with
  | true => simpa [allFacesNr] using h2
  | false => simpa [allFacesNr] using h1

/-- The discretizations of a face set: number of elements, sound picks, and resampling to the group's own
unit nodes is the identity. (Specification or proof vocabulary, no code.) -/
structure FaceDiscrOK (perFace : Bool) (sel : FaceSel) (groups : List (ElGroup N))
    (fags : List (List (Fag A))) (D : List (DGroup R U)) (unit : List U) (nt : Nat → Nat) : Prop where
  pickSound : ∀ d ∈ D, PickSound d
  group : ∀ (g f : Nat) grp fg, groups[g]? = some grp → fags[g]? = some fg → f < grp.nfaces →
    ∃ d, D[bdryGroupNr perFace (groups.map ElGroup.nfaces) g f]? = some d ∧ d.ndof = nt g ∧
      d.nel = (origins perFace grp.nfaces (groupFaces sel grp.nelements grp.nfaces fg) f).length ∧
      ∀ u, unit[bdryGroupNr perFace (groups.map ElGroup.nfaces) g f]? = some u →
        (∀ i < d.ndof, ∀ j < d.ndof, d.mat u i j = if i = j then 1 else 0) ∧
        ∀ I, d.pick u = some I → I.length = d.ndof

/-- C28: if two face sets together are all faces, each face once (the interior faces and those of the
boundary, in a mesh all of whose faces are one or the other), then restricting to each of them, embedding and
adding is restricting to all faces. -/
theorem C28_sum [DecidableEq U] {perFace : Bool} {un : Nat → Nat → U} {res : Nat → Nat → N → M}
    {sel₁ sel₂ : FaceSel} {nv : Nat} {groups : List (ElGroup N)} {fags : List (List (Fag A))}
    (hlen : groups.length = fags.length) (hnf : ∀ g ∈ groups, 1 < g.nfaces)
    (hcover : ∀ (g : Nat) grp fg, groups[g]? = some grp → fags[g]? = some fg →
      (groupFaces sel₁ grp.nelements grp.nfaces fg ++ groupFaces sel₂ grp.nelements grp.nfaces fg).Perm
        (groupFaces .all grp.nelements grp.nfaces fg))
    {r₁ r₂ r : FaceRestr M U}
    (h₁ : makeFaceRestriction perFace un res sel₁ nv groups fags = some r₁)
    (h₂ : makeFaceRestriction perFace un res sel₂ nv groups fags = some r₂)
    (h : makeFaceRestriction perFace un res .all nv groups fags = some r)
    {volD D₁ D₂ D : List (DGroup R U)} {unit₁ unit₂ unit : List U} {nt : Nat → Nat}
    (hvs : ∀ d ∈ volD, PickSound d)
    (hvol : ∀ (g : Nat) grp, groups[g]? = some grp → ∃ d, volD[g]? = some d ∧ d.nel = grp.nelements ∧
      ∀ f I, d.pick (un g f) = some I → I.length = nt g)
    (hD₁ : FaceDiscrOK perFace sel₁ groups fags D₁ unit₁ nt)
    (hD₂ : FaceDiscrOK perFace sel₂ groups fags D₂ unit₂ nt)
    {c₁ c₂ : DirectConn R U}
    (he₁ : faceEmbedding (groups.map fun g => (g.nelements, g.nfaces)) r₁.batches D₁ D unit₁ unit =
      some c₁)
    (he₂ : faceEmbedding (groups.map fun g => (g.nelements, g.nfaces)) r₂.batches D₂ D unit₂ unit =
      some c₂)
    {merge : Bool} {w v₁ v₂ v u₁ u₂ : DofArr R}
    (hv₁ : (DirectConn.mk volD D₁ r₁.batches true).call merge w = some v₁)
    (hv₂ : (DirectConn.mk volD D₂ r₂.batches true).call merge w = some v₂)
    (hv : (DirectConn.mk volD D r.batches true).call merge w = some v)
    (hu₁ : c₁.call merge v₁ = some u₁) (hu₂ : c₂.call merge v₂ = some u₂)
    {g f : Nat} {grp : ElGroup N} (hg : groups[g]? = some grp) (hf : f < grp.nfaces)
    {el i : Nat} (hel : el < grp.nelements) (hi : i < nt g) :
    u₁ (bdryGroupNr perFace (groups.map ElGroup.nfaces) g f) (allFacesNr perFace grp.nelements f el) i +
    u₂ (bdryGroupNr perFace (groups.map ElGroup.nfaces) g f) (allFacesNr perFace grp.nelements f el) i =
    v (bdryGroupNr perFace (groups.map ElGroup.nfaces) g f) (allFacesNr perFace grp.nelements f el) i := by
  have hnf' : perFace = false → ∀ g ∈ groups, 0 < g.nfaces := fun _ g hg => by
    have := hnf g hg; omega
  have hglt : g < groups.length := (List.getElem?_eq_some_iff.1 hg).1
  obtain ⟨fg, hfg⟩ : ∃ fg, fags[g]? = some fg := ⟨_, List.getElem?_eq_getElem (hlen ▸ hglt)⟩
  have hallOK : ∀ (gr : ElGroup N) (fl : List (Fag A)),
      (∀ ef ∈ groupFaces .all gr.nelements gr.nfaces fl, ef.face < gr.nfaces ∧ ef.el < gr.nelements) ∧
      (groupFaces .all gr.nelements gr.nfaces fl).Nodup := by
    intro gr fl
    constructor
    · intro ef hef
      obtain ⟨e, k⟩ := ef
      exact ((C27_requested .all _ _ fl e k).1 hef).symm
    · by_cases h0 : 0 < gr.nelements ∧ 0 < gr.nfaces
      · exact (C27_all_numbers fl _ _ 0 0 h0.1 h0.2).2.2.2
      · have : groupFaces .all gr.nelements gr.nfaces fl = [] := by
          rw [List.eq_nil_iff_forall_not_mem]
          rintro ⟨e, k⟩ hef
          have := (C27_requested .all _ _ fl e k).1 hef
          simp only at this
          omega
        rw [this]
        exact List.nodup_nil
  have hok : ReqOK sel₁ groups fags ∧ ReqOK sel₂ groups fags := by
    constructor
    · intro g grp fg hg hfg
      have hp := hcover g grp fg hg hfg
      obtain ⟨a1, a2⟩ := hallOK grp fg
      exact ⟨fun ef hef => a1 ef (hp.mem_iff.1 (List.mem_append_left _ hef)),
        (List.nodup_append.1 (hp.nodup_iff.2 a2)).1⟩
    · intro g grp fg hg hfg
      have hp := hcover g grp fg hg hfg
      obtain ⟨a1, a2⟩ := hallOK grp fg
      exact ⟨fun ef hef => a1 ef (hp.mem_iff.1 (List.mem_append_right _ hef)),
        (List.nodup_append.1 (hp.nodup_iff.2 a2)).2.1⟩
  have hp := hcover g grp fg hg hfg
  obtain ⟨a1, a2⟩ := hallOK grp fg
  obtain ⟨d, hd, hdn, hdp⟩ := hvol g grp hg
  obtain ⟨d₁, p1, p2, p3, p4⟩ := hD₁.group g f grp fg hg hfg hf
  obtain ⟨d₂, q1, q2, q3, q4⟩ := hD₂.group g f grp fg hg hfg hf
  have E₁ := C28_embedding h₁ hlen hnf hok.1 he₁ hD₁.pickSound hu₁ hg hfg hf p1 p3 p4 hel
    (i := i) (by omega)
  have E₂ := C28_embedding h₂ hlen hnf hok.2 he₂ hD₂.pickSound hu₂ hg hfg hf q1 q3 q4 hel
    (i := i) (by omega)
  have hA := C27_value h hlen hnf' hvs hv hg hfg hd hdn hf a1 hdp hi
    (allFacesNr_origins (perFace := perFace) fg hel hf)
  have hmem : (⟨el, f⟩ : ElFace) ∈ groupFaces .all grp.nelements grp.nfaces fg :=
    (C27_requested .all _ _ fg el f).2 ⟨hel, hf⟩
  have hnd := hp.nodup_iff.2 a2
  rcases List.mem_append.1 (hp.mem_iff.2 hmem) with hm | hm
  · obtain ⟨n, hn⟩ := mem_origins (perFace := perFace) hf hm
    have hnot : (⟨el, f⟩ : ElFace) ∉ groupFaces sel₂ grp.nelements grp.nfaces fg := fun h2 =>
      (List.nodup_append.1 hnd).2.2 _ hm _ h2 rfl
    rw [E₁.1 n hn, E₂.2 hnot, add_zero, hA]
    exact C27_value h₁ hlen hnf' hvs hv₁ hg hfg hd hdn hf (hok.1 g grp fg hg hfg).1 hdp hi hn
  · obtain ⟨n, hn⟩ := mem_origins (perFace := perFace) hf hm
    have hnot : (⟨el, f⟩ : ElFace) ∉ groupFaces sel₁ grp.nelements grp.nfaces fg := fun h2 =>
      (List.nodup_append.1 hnd).2.2 _ h2 _ hm rfl
    rw [E₂.1 n hn, E₁.2 hnot, zero_add, hA]
    exact C27_value h₂ hlen hnf' hvs hv₂ hg hfg hd hdn hf (hok.2 g grp fg hg hfg).1 hdp hi hn

end values

/-- Restriction and embedding of the two triangles of `exFaceMesh`, one unit node per face. -/
def exEmb (perFace : Bool) (sel : FaceSel) : Option (FaceRestr (Nat × Nat) Unit × DirectConn ℤ Unit) := do
  let ra ← makeFaceRestriction perFace (fun _ _ => ()) (fun _ f n => (f, n)) .all 4 exFaceMesh exFaceFags
  let r ← makeFaceRestriction perFace (fun _ _ => ()) (fun _ f n => (f, n)) sel 4 exFaceMesh exFaceFags
  let mk := fun (els : List (Option (BdryEl (Nat × Nat)))) =>
    (⟨els.length, 1, fun _ _ _ => 1, fun _ => none⟩ : DGroup ℤ Unit)
  let c ← faceEmbedding [(2, 3)] r.batches (r.groups.map mk) (ra.groups.map mk)
    (r.groups.map fun _ => ()) (ra.groups.map fun _ => ())
  some (r, c)

example : ((exEmb false .interior).map fun p => (p.2.groups.map fun bs => bs.map fun b =>
    (b.fromEls, b.toEls))) = some [[([0], [1]), ([1], [2]), ([], [])]] := by decide +kernel

example : ((exEmb true (.tag .all)).map fun p => (p.2.groups.map fun bs => bs.map fun b =>
    (b.fromEls, b.toEls))) = some [[([0], [0])], [([0], [1])], [([0, 1], [0, 1])]] := by decide +kernel

/-- In the example the interior and boundary faces are all faces, and the faces requested are valid. -/
example : (groupFaces .interior 2 3 (exFaceFags.getD 0 []) ++
    groupFaces (.tag .all) 2 3 (exFaceFags.getD 0 [])).Perm
      (groupFaces .all 2 3 (exFaceFags.getD 0 [])) ∧ ∀ g ∈ exFaceMesh, 1 < g.nfaces := by decide

/-- C28: the embedding is declared not surjective, and leads between the two face discretizations given. -/
theorem C28_not_surjective {R U : Type} [DecidableEq U] {vol : List (Nat × Nat)}
    {fc : List (List (Batch U))} {facesD allD : List (DGroup R U)} {fromUnit allUnit : List U}
    {c : DirectConn R U} (h : faceEmbedding vol fc facesD allD fromUnit allUnit = some c) :
    c.surjective = false ∧ c.fromD = facesD ∧ c.toD = allD := by
  unfold faceEmbedding at h
  split at h
  · simp at h
  · obtain ⟨gs, _, rfl⟩ := Option.map_eq_some_iff.1 h
    exact ⟨rfl, rfl, rfl⟩

/-- In the example four of the six faces are not reached. -/
example : ((exEmb false .interior).map fun p => (p.2.surjective, p.2.toD.map DGroup.nel,
    p.2.groups.map fun bs => (bs.flatMap Batch.toEls))) = some (false, [6], [[1, 2]]) := by
  decide +kernel

end Meshmode
