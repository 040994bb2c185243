import Verif.Connection.Opposite
import Verif.Mesh.Numbering

/-!
# Connection to the boundary of another part (C54)

`make_remote_group_infos` (meshmode/distributed.py) and `make_partition_connection`
(meshmode/discretization/connection/opposite_face.py).
-/
namespace Meshmode

variable {U N M A : Type}

/-! ## Model -/

/-- `RemoteGroupInfo`, meshmode/distributed.py:164-169.  The three index arrays are kept as one list of (volume
element, face), boundary element. -/
structure RemoteInfo (A : Type) where
  ipags : List (Nat × List AdjRow × A)
  entries : List ((Nat × Nat) × Nat)

/-- The inter-part adjacency groups with a part: group number, rows and affine map, meshmode/distributed.py:183-186. -/
def ipagsOf [DecidableEq A] (part : Nat) (fags : List (Fag A)) : List (Nat × List AdjRow × A) :=
  fags.filterMap fun
    | .interPart ig _ part' rows aff => if part' = part then some (ig, rows, aff) else none
    | _ => none

/-- `vol_elem_indices`, `bdry_faces` and `bdry_elem_indices`, meshmode/distributed.py:187-195. -/
def remoteEntries (bs : List (Batch U)) : List ((Nat × Nat) × Nat) :=
  bs.flatMap fun b =>
    match b.face with
    | some fc => (b.fromEls.zip b.toEls).map fun q => ((q.1, fc), q.2)
    | none => []

/-- `make_remote_group_infos`, meshmode/distributed.py:172-196. -/
def makeRemoteInfos [DecidableEq A] (part : Nat) (fags : List (List (Fag A))) (vbc : List (List (Batch U))) :
    List (RemoteInfo A) :=
  (fags.zip vbc).map fun p => ⟨ipagsOf part p.1, remoteEntries p.2⟩

/-- The matched boundary elements for one local group and one remote adjacency group,
meshmode/discretization/connection/opposite_face.py:595-621; `none` if an assertion fails or an index is out of
range. -/
def partPairs (sizes : List Nat) (vbc : List (List (Batch U))) (entries : List ((Nat × Nat) × Nat))
    (rows : List AdjRow) (i : Nat) : Option (List (Nat × Nat)) :=
  (rows.filter fun r => findGroupIndexFrom 0 r.nel sizes 0 == i).mapM fun r => do
    let t ← bdryLookup (vbc.getD i []) (r.nel - (baseElementNrs sizes).getD i 0) r.nface
    let s ← entries.reverse.lookup (r.el, r.face)
    some (t, s)

/-- `make_partition_connection`, meshmode/discretization/connection/opposite_face.py:536-637: the batches of each
local group.  `none` if an assertion fails, for a neighbour number of no local element, or where the maximum of
an empty array is taken.  The affine map of the remote adjacency group is applied to the source nodes. -/
def makePartConn (cross : Nat → Nat → A → List (Nat × Nat) → Option (CrossNodes U)) (sizes : List Nat)
    (vbc : List (List (Batch U))) (infos : List (RemoteInfo A)) : Option (List (List (Batch U))) :=
  if sizes.length != vbc.length
    || infos.any (fun info => !info.ipags.isEmpty && info.entries.isEmpty)
    || infos.any (fun info => info.ipags.any fun p => p.2.1.any fun r =>
        sizes.length ≤ findGroupIndexFrom 0 r.nel sizes 0) then none
  else (List.range vbc.length).mapM fun i =>
    (infos.mapM fun info : RemoteInfo A =>
      (info.ipags.mapM fun p : Nat × List AdjRow × A => do
        let pairs ← partPairs sizes vbc info.entries p.2.1 i
        crossBatches (cross p.1 i p.2.2) p.1 pairs).map List.flatten).map List.flatten

/-! ## Specification -/

/-- Face `f` of element `el` of group `i` of a part has face `f'` of element `el'` of group `j` of another part
as neighbour. (Specification or proof vocabulary, no code.) -/
def AcrossParts (fags : List (List (Fag A))) (part : Nat) (sizes : List Nat) (i el f j el' f' : Nat) : Prop :=
  ∃ fg ig t rows aff nel, fags[i]? = some fg ∧ Fag.interPart ig t part rows aff ∈ fg ∧
    ⟨el, f, nel, f'⟩ ∈ rows ∧ IsGlobalNr sizes j el' nel

/-- One part as seen from part number `part` with groups of the given sizes: the faces tagged `t` are those of
the adjacency groups with that part. (Specification or proof vocabulary, no code.) -/
structure PartSide (groups : List (ElGroup N)) (fags : List (List (Fag A))) (t : BTag) (part : Nat)
    (sizes : List Nat) : Prop where
  len : groups.length = fags.length
  tagged : ∀ fg ∈ fags, ∀ fag ∈ fg, (∃ fs, fag.bdry? = some (t, fs)) ↔
    ∃ ig t' rows aff, fag = Fag.interPart ig t' part rows aff
  igroup : ∀ (i : Nat) fg, fags[i]? = some fg → ∀ ig t' rows aff, Fag.interPart ig t' part rows aff ∈ fg →
    ig = i ∧ rows ≠ []
  valid : ∀ (i : Nat) grp fg, groups[i]? = some grp → fags[i]? = some fg →
    ∀ ef ∈ groupFaces (.tag t) grp.nelements grp.nfaces fg, ef.el < grp.nelements ∧ ef.face < grp.nfaces
  nbr : ∀ fg ∈ fags, ∀ ig t' rows aff, Fag.interPart ig t' part rows aff ∈ fg → ∀ r ∈ rows,
    r.nel < sizes.sum
  nodup : ∀ (i : Nat) grp fg, groups[i]? = some grp → fags[i]? = some fg →
    (groupFaces (.tag t) grp.nelements grp.nfaces fg).Nodup

/-- The boundary elements of group `i` of the restriction to a tag: which face of which element each comes
from. (Specification or proof vocabulary, no code.) -/
def tagOrigins (t : BTag) (groups : List (ElGroup N)) (fags : List (List (Fag A))) (i : Nat) : List ElFace :=
  match groups[i]?, fags[i]? with
  | some grp, some fg => byFace grp.nfaces (groupFaces (.tag t) grp.nelements grp.nfaces fg)
  | _, _ => []

/-! ## Lemmas -/

section
variable [DecidableEq A]

theorem mem_ipagsOf {part : Nat} {fags : List (Fag A)} {ig : Nat} {rows : List AdjRow} {aff : A} :
    (ig, rows, aff) ∈ ipagsOf part fags ↔ ∃ t, Fag.interPart ig t part rows aff ∈ fags := by
  unfold ipagsOf
  rw [List.mem_filterMap]
  constructor
  · rintro ⟨fag, h1, h2⟩
    cases fag <;> simp at h2
    obtain ⟨rfl, rfl, rfl, rfl⟩ := h2
    exact ⟨_, h1⟩
  · rintro ⟨t, h⟩
    exact ⟨_, h, by simp⟩

theorem groupFaces_eq_ipags {t : BTag} {part : Nat} {fg : List (Fag A)} (nel nf : Nat)
    (h : ∀ fag ∈ fg, (∃ fs, fag.bdry? = some (t, fs)) ↔
      ∃ ig t' rows aff, fag = Fag.interPart ig t' part rows aff) :
    groupFaces (.tag t) nel nf fg =
      (ipagsOf part fg).flatMap fun p => p.2.1.map fun r => (⟨r.el, r.face⟩ : ElFace) := by
  simp only [groupFaces]
  induction fg with
  | nil => rfl
  | cons fag fg ih =>
    have h1 := h fag (by simp)
    have h2 := ih fun fag' hf => h fag' (by simp [hf])
    rw [List.flatMap_cons, h2]
    unfold ipagsOf
    rw [List.filterMap_cons]
    cases fag with
    | interior => simp [Fag.bdry?]
    | boundary i t' fs =>
      have : t' ≠ t := by
        rintro rfl
        obtain ⟨_, _, _, _, h3⟩ := h1.1 ⟨fs, rfl⟩
        cases h3
      simp [Fag.bdry?, this]
    | interPart i t' p rows aff =>
      by_cases hp : p = part
      · subst hp
        obtain ⟨fs, hfs⟩ := h1.2 ⟨_, _, _, _, rfl⟩
        simp only [Fag.bdry?, Option.some.injEq, Prod.mk.injEq] at hfs
        simp [Fag.bdry?, hfs.1]
      · have : t' ≠ t := by
          rintro rfl
          obtain ⟨_, _, _, _, h3⟩ := h1.1 ⟨_, rfl⟩
          cases h3
          exact hp rfl
        simp [Fag.bdry?, this, hp]

theorem tagOrigins_props {groups : List (ElGroup N)} {fags : List (List (Fag A))} {t : BTag} {part : Nat}
    {sizes : List Nat} (side : PartSide groups fags t part sizes) (i : Nat) :
    (tagOrigins t groups fags i).Nodup ∧
    ∀ el f, ⟨el, f⟩ ∈ tagOrigins t groups fags i ↔ ∃ j el' f', AcrossParts fags part sizes i el f j el' f' := by
  unfold tagOrigins
  by_cases hi : i < groups.length
  · have hg := List.getElem?_eq_getElem hi
    have hf := List.getElem?_eq_getElem (side.len ▸ hi : i < fags.length)
    simp only [hg, hf]
    have hper := filter_partition_perm groups[i].nfaces _ fun ef hef => (side.valid i _ _ hg hf ef hef).2
    refine ⟨hper.nodup_iff.2 (side.nodup i _ _ hg hf), ?_⟩
    intro el f
    rw [hper.mem_iff, groupFaces_eq_ipags _ _ (side.tagged _ (List.mem_of_getElem? hf)), List.mem_flatMap]
    constructor
    · rintro ⟨⟨ig, rows, aff⟩, h1, h2⟩
      obtain ⟨t', h3⟩ := mem_ipagsOf.1 h1
      obtain ⟨row, h4, h5⟩ := List.mem_map.1 h2
      simp only [ElFace.mk.injEq] at h5
      obtain ⟨rfl, rfl⟩ := h5
      obtain ⟨j, el', hn⟩ := ((C01_numbering_bijective sizes row.nel).1).1
        (side.nbr _ (List.mem_of_getElem? hf) _ _ _ _ h3 row h4)
      exact ⟨j, el', row.nface, _, ig, t', rows, aff, row.nel, hf, h3, h4, hn⟩
    · rintro ⟨j, el', f', fg, ig, t', rows, aff, nel, h1, h2, h3, h4⟩
      rw [hf] at h1
      obtain rfl := Option.some.inj h1
      exact ⟨(ig, rows, aff), mem_ipagsOf.2 ⟨t', h2⟩, List.mem_map.2 ⟨_, h3, rfl⟩⟩
  · have hg : groups[i]? = none := List.getElem?_eq_none (by omega)
    have hf : fags[i]? = none := List.getElem?_eq_none (by rw [← side.len]; omega)
    simp only [hg]
    refine ⟨List.nodup_nil, ?_⟩
    intro el f
    simp only [List.not_mem_nil, false_iff]
    rintro ⟨j, el', f', fg, ig, t', rows, aff, nel, h1, _⟩
    rw [hf] at h1
    cases h1

/-- A face of a part has one neighbour. -/
theorem acrossParts_unique {groups : List (ElGroup N)} {fags : List (List (Fag A))} {t : BTag} {part : Nat}
    {sizes : List Nat} (side : PartSide groups fags t part sizes) {i el f j₁ e₁ f₁ j₂ e₂ f₂ : Nat}
    (h₁ : AcrossParts fags part sizes i el f j₁ e₁ f₁) (h₂ : AcrossParts fags part sizes i el f j₂ e₂ f₂) :
    j₁ = j₂ ∧ e₁ = e₂ ∧ f₁ = f₂ := by
  obtain ⟨fg, ig, t', rows, aff, nel, a1, a2, a3, a4⟩ := h₁
  obtain ⟨fg', ig', t'', rows', aff', nel', b1, b2, b3, b4⟩ := h₂
  rw [a1] at b1
  obtain rfl := Option.some.inj b1
  have hi : i < groups.length := side.len ▸ (List.getElem?_eq_some_iff.1 a1).1
  have hnd := side.nodup i _ _ (List.getElem?_eq_getElem hi) a1
  rw [groupFaces_eq_ipags _ _ (side.tagged _ (List.mem_of_getElem? a1)), ← List.map_flatMap] at hnd
  have h3 := (List.nodup_map_iff_inj_on (List.Nodup.of_map _ hnd)).1 hnd
    ⟨el, f, nel, f₁⟩ (List.mem_flatMap.2 ⟨(ig, rows, aff), mem_ipagsOf.2 ⟨_, a2⟩, a3⟩)
    ⟨el, f, nel', f₂⟩ (List.mem_flatMap.2 ⟨(ig', rows', aff'), mem_ipagsOf.2 ⟨_, b2⟩, b3⟩) rfl
  simp only [AdjRow.mk.injEq, true_and] at h3
  obtain ⟨rfl, rfl⟩ := h3
  obtain ⟨h4, h5⟩ := (C01_numbering_bijective sizes nel).2 _ _ _ _ a4 b4
  exact ⟨h4, h5, rfl⟩

theorem findGroup_of_global {sizes : List Nat} {g i e : Nat} (h : IsGlobalNr sizes g i e) :
    findGroupIndexFrom 0 e sizes 0 = g ∧ g < sizes.length ∧ e - (baseElementNrs sizes).getD g 0 = i := by
  obtain ⟨n, h1, h2, h3⟩ := h
  obtain ⟨hlt, rfl⟩ := List.getElem?_eq_some_iff.1 h1
  refine ⟨findGroupIndexFrom_spec 0 e sizes g i hlt h2 (by omega), hlt, ?_⟩
  rw [List.getD_eq_getElem?_getD, baseElementNrs_getElem? sizes g hlt, Option.getD_some]
  omega

theorem remoteEntries_lookup (bs : List (Batch U)) (el f : Nat) :
    (remoteEntries bs).reverse.lookup (el, f) = bdryLookup bs el f := rfl

/-! ## Properties -/

section two
variable {un un' : Nat → Nat → U} {res res' : Nat → Nat → N → M} {nv nv' : Nat}
  {gP gQ : List (ElGroup N)} {fP fQ : List (List (Fag A))} {tP tQ : BTag} {p q : Nat}
  {rP rQ : FaceRestr M U}

/-- What the connection moves in group `i`, before grouping into batches.
(Specification or proof vocabulary, no code.) -/
def partMoves (tP tQ : BTag) (gP gQ : List (ElGroup N)) (fP fQ : List (List (Fag A))) (p i : Nat) :
    List (Nat × Nat × Nat) :=
  fQ.zipIdx.flatMap fun fgj => (ipagsOf p fgj.1).flatMap fun ir =>
    (ir.2.1.filter fun r => findGroupIndexFrom 0 r.nel (gP.map ElGroup.nelements) 0 == i).map fun r =>
      ((tagOrigins tQ gP fP i).idxOf
        ⟨r.nel - (baseElementNrs (gP.map ElGroup.nelements)).getD i 0, r.nface⟩, fgj.2,
        (tagOrigins tP gQ fQ fgj.2).idxOf ⟨r.el, r.face⟩)

/-- Boundary element `x.1` of group `i` of part `p` and boundary element `x.2` of group `j` of the other part are the
two sides of a row of an adjacency group of the other part with affine map `aff`.
(Specification or proof vocabulary, no code.) -/
def AdjPartPair (tP tQ : BTag) (gP gQ : List (ElGroup N)) (fP fQ : List (List (Fag A))) (p i j : Nat) (aff : A)
    (x : Nat × Nat) : Prop :=
  ∃ fg t' rows row el, fQ[j]? = some fg ∧ Fag.interPart j t' p rows aff ∈ fg ∧ row ∈ rows ∧
    IsGlobalNr (gP.map ElGroup.nelements) i el row.nel ∧
    (tagOrigins tQ gP fP i)[x.1]? = some ⟨el, row.nface⟩ ∧ (tagOrigins tP gQ fQ j)[x.2]? = some ⟨row.el, row.face⟩

/-- The batches of one local group. (Specification or proof vocabulary, no code.) -/
def partGroup (cross : Nat → Nat → A → List (Nat × Nat) → Option (CrossNodes U)) (sizes : List Nat)
    (vbc : List (List (Batch U))) (infos : List (RemoteInfo A)) (i : Nat) : Option (List (Batch U)) :=
  (infos.mapM fun info : RemoteInfo A =>
      (info.ipags.mapM fun x : Nat × List AdjRow × A => do
        let pairs ← partPairs sizes vbc info.entries x.2.1 i
        crossBatches (cross x.1 i x.2.2) x.1 pairs).map List.flatten).map List.flatten

omit [DecidableEq A] in
theorem makePartConn_groups {cross : Nat → Nat → A → List (Nat × Nat) → Option (CrossNodes U)}
    {sizes : List Nat} {vbc conn : List (List (Batch U))} {infos : List (RemoteInfo A)}
    (h : makePartConn cross sizes vbc infos = some conn) : conn.length = vbc.length ∧
    ∀ (i : Nat) bs, conn[i]? = some bs → partGroup cross sizes vbc infos i = some bs := by
  unfold makePartConn at h
  split at h
  · simp at h
  · obtain ⟨h1, h2⟩ := mapM_getElem?_some h
    refine ⟨by simpa using h1, ?_⟩
    intro i bs hbs
    have hil : i < vbc.length := by
      have := (List.getElem?_eq_some_iff.1 hbs).1
      simpa [h1] using this
    obtain ⟨bs', h3, h4⟩ := h2 i i (List.getElem?_range hil)
    rw [hbs] at h3
    obtain rfl := Option.some.inj h3
    exact h4

/-- Both halves of C54: definedness and what the batches are. -/
theorem partConn_all
    (hP : makeFaceRestriction false un res (.tag tQ) nv gP fP = some rP)
    (hQ : makeFaceRestriction false un' res' (.tag tP) nv' gQ fQ = some rQ)
    (hnfP : ∀ g ∈ gP, 0 < g.nfaces) (hnfQ : ∀ g ∈ gQ, 0 < g.nfaces)
    (sP : PartSide gP fP tQ q (gQ.map ElGroup.nelements))
    (sQ : PartSide gQ fQ tP p (gP.map ElGroup.nelements))
    (symm : ∀ i el f j el' f', AcrossParts fP q (gQ.map ElGroup.nelements) i el f j el' f' ↔
      AcrossParts fQ p (gP.map ElGroup.nelements) j el' f' i el f)
    (cross : Nat → Nat → A → List (Nat × Nat) → Option (CrossNodes U)) :
    ((∀ i j aff pairs, pairs ≠ [] → (∀ x ∈ pairs, AdjPartPair tP tQ gP gQ fP fQ p i j aff x) →
        ∃ cn, cross j i aff pairs = some cn ∧ ∀ e < pairs.length, cn.close e e = true) →
      ∃ conn, makePartConn cross (gP.map ElGroup.nelements) rP.batches (makeRemoteInfos p fQ rQ.batches) =
        some conn) ∧
    ∀ conn, makePartConn cross (gP.map ElGroup.nelements) rP.batches (makeRemoteInfos p fQ rQ.batches) =
        some conn →
      (conn.length = rP.groups.length ∧
      ∀ (i : Nat) bs, conn[i]? = some bs →
        (∃ els, rP.groups[i]? = some els ∧ (bs.flatMap Batch.toEls).Perm (List.range els.length)) ∧
        ∀ t j s, (t, j, s) ∈ bs.flatMap Batch.moves ↔ ∃ el f el' f',
          AcrossParts fP q (gQ.map ElGroup.nelements) i el f j el' f' ∧
          (tagOrigins tQ gP fP i)[t]? = some ⟨el, f⟩ ∧ (tagOrigins tP gQ fQ j)[s]? = some ⟨el', f'⟩) ∧
      ∀ (i : Nat) bs, conn[i]? = some bs → ∀ b ∈ bs, b.toEls.length = b.fromEls.length ∧ b.toEls ≠ [] ∧
        ∃ cn tmpl aff pairs, cross b.fromGroup i aff pairs = some cn ∧ tmpl < pairs.length ∧
          b.nodes = cn.unit tmpl ∧ (∀ x ∈ pairs, AdjPartPair tP tQ gP gQ fP fQ p i b.fromGroup aff x) ∧
          ∀ x ∈ b.toEls.zip b.fromEls, ∃ e : Nat, pairs[e]? = some x ∧ cn.close tmpl e = true := by
  obtain ⟨hcP1, hcP2⟩ := C27_group_count hP sP.len (fun _ => hnfP)
  obtain ⟨hcQ1, hcQ2⟩ := C27_group_count hQ sQ.len (fun _ => hnfQ)
  have hblP : rP.batches.length = gP.length := by rw [hcP2, hcP1]; simp
  have hblQ : rQ.batches.length = gQ.length := by rw [hcQ2, hcQ1]; simp
  set sizes := gP.map ElGroup.nelements with hsizes
  -- every row of a remote group, with its local neighbour
  have hrow : ∀ (j : Nat) fg ig rows aff, fQ[j]? = some fg → (ig, rows, aff) ∈ ipagsOf p fg → ∀ r ∈ rows,
      ∃ i el, IsGlobalNr sizes i el r.nel ∧ AcrossParts fQ p sizes j r.el r.face i el r.nface := by
    intro j fg ig rows aff hfg hm r hr
    obtain ⟨t', h3⟩ := mem_ipagsOf.1 hm
    obtain ⟨i, el, hn⟩ := ((C01_numbering_bijective sizes r.nel).1).1
      (sQ.nbr _ (List.mem_of_getElem? hfg) _ _ _ _ h3 r hr)
    exact ⟨i, el, hn, fg, ig, t', rows, aff, r.nel, hfg, h3, hr, hn⟩
  have hgP : ∀ i el e, IsGlobalNr sizes i el e → i < gP.length := by
    rintro i el e ⟨n, h1, _⟩
    have := (List.getElem?_eq_some_iff.1 h1).1
    simpa [hsizes] using this
  -- lookups
  have hlookP : ∀ i el f, ⟨el, f⟩ ∈ tagOrigins tQ gP fP i →
      bdryLookup (rP.batches.getD i []) el f = some ((tagOrigins tQ gP fP i).idxOf ⟨el, f⟩) := by
    intro i el f hm
    by_cases hi : i < gP.length
    · have hg := List.getElem?_eq_getElem hi
      have hf := List.getElem?_eq_getElem (sP.len ▸ hi : i < fP.length)
      obtain ⟨bs, hbs, ok⟩ := vbcOK_of_restriction hP sP.len hnfP hg hf
      rw [List.getD_eq_getElem?_getD, hbs, Option.getD_some]
      have hO : tagOrigins tQ gP fP i = byFace gP[i].nfaces
          (groupFaces (.tag tQ) gP[i].nelements gP[i].nfaces (fP[i]'(sP.len ▸ hi))) := by
        simp only [tagOrigins, hg, hf]
      have hnd := (tagOrigins_props sP i).1
      rw [hO] at hm hnd ⊢
      have hper := filter_partition_perm gP[i].nfaces _ fun ef hef => (sP.valid i _ _ hg hf ef hef).2
      exact bdryLookup_eq ok hnd (sP.valid i _ _ hg hf _ (hper.mem_iff.1 hm)).2 (getElem?_idxOf' hm)
    · simp [tagOrigins, List.getElem?_eq_none (show gP.length ≤ i by omega)] at hm
  have hlookQ : ∀ (j : Nat) bs, rQ.batches[j]? = some bs → ∀ el f, ⟨el, f⟩ ∈ tagOrigins tP gQ fQ j →
      bdryLookup bs el f = some ((tagOrigins tP gQ fQ j).idxOf ⟨el, f⟩) := by
    intro i bs hbs' el f hm
    have hi : i < gQ.length := hblQ ▸ (List.getElem?_eq_some_iff.1 hbs').1
    have hg := List.getElem?_eq_getElem hi
    have hf := List.getElem?_eq_getElem (sQ.len ▸ hi : i < fQ.length)
    obtain ⟨bs, hbs, ok⟩ := vbcOK_of_restriction hQ sQ.len hnfQ hg hf
    rw [hbs] at hbs'
    obtain rfl := Option.some.inj hbs'
    have hO : tagOrigins tP gQ fQ i = byFace gQ[i].nfaces
        (groupFaces (.tag tP) gQ[i].nelements gQ[i].nfaces (fQ[i]'(sQ.len ▸ hi))) := by
      simp only [tagOrigins, hg, hf]
    have hnd := (tagOrigins_props sQ i).1
    rw [hO] at hm hnd ⊢
    have hper := filter_partition_perm gQ[i].nfaces _ fun ef hef => (sQ.valid i _ _ hg hf ef hef).2
    exact bdryLookup_eq ok hnd (sQ.valid i _ _ hg hf _ (hper.mem_iff.1 hm)).2 (getElem?_idxOf' hm)
  have hpair : ∀ (i j : Nat) fg t' rows aff (row : AdjRow) el, fQ[j]? = some fg →
      Fag.interPart j t' p rows aff ∈ fg → row ∈ rows → IsGlobalNr sizes i el row.nel →
      AdjPartPair tP tQ gP gQ fP fQ p i j aff ((tagOrigins tQ gP fP i).idxOf ⟨el, row.nface⟩,
        (tagOrigins tP gQ fQ j).idxOf ⟨row.el, row.face⟩) := by
    intro i j fg t' rows aff row el hf hm hr hn
    have hac : AcrossParts fQ p sizes j row.el row.face i el row.nface :=
      ⟨fg, j, t', rows, aff, row.nel, hf, hm, hr, hn⟩
    exact ⟨fg, t', rows, row, el, hf, hm, hr, hn,
      getElem?_idxOf' (((tagOrigins_props sP i).2 _ _).2 ⟨_, _, _, (symm _ _ _ _ _ _).2 hac⟩),
      getElem?_idxOf' (((tagOrigins_props sQ j).2 _ _).2 ⟨_, _, _, hac⟩)⟩
  -- one remote adjacency group
  have hpairs : ∀ (i j : Nat) fg bs ig rows aff, fQ[j]? = some fg → rQ.batches[j]? = some bs →
      (ig, rows, aff) ∈ ipagsOf p fg →
      partPairs sizes rP.batches (remoteEntries bs) rows i = some ((rows.filter fun r => findGroupIndexFrom 0 r.nel sizes 0 == i).map fun r =>
        ((tagOrigins tQ gP fP i).idxOf ⟨r.nel - (baseElementNrs sizes).getD i 0, r.nface⟩,
          (tagOrigins tP gQ fQ j).idxOf ⟨r.el, r.face⟩)) := by
    intro i j fg bs ig rows aff hfg hbs hm
    unfold partPairs
    apply mapM_some_eq_map
    intro r hr
    obtain ⟨hr1, hr2⟩ := List.mem_filter.1 hr
    obtain ⟨i', el, hn, hac⟩ := hrow j fg ig rows aff hfg hm r hr1
    obtain ⟨h1, h2, h3⟩ := findGroup_of_global hn
    have : i' = i := by rw [h1] at hr2; simpa using hr2
    subst this
    have hm1 : (⟨el, r.nface⟩ : ElFace) ∈ tagOrigins tQ gP fP i' :=
      ((tagOrigins_props sP i').2 _ _).2 ⟨_, _, _, (symm _ _ _ _ _ _).2 hac⟩
    have hm2 : (⟨r.el, r.face⟩ : ElFace) ∈ tagOrigins tP gQ fQ j :=
      ((tagOrigins_props sQ j).2 _ _).2 ⟨_, _, _, hac⟩
    have e1 := hlookP _ _ _ hm1
    have e2 := hlookQ j bs hbs _ _ hm2
    rw [← remoteEntries_lookup] at e2
    rw [h3, e1, e2]
    rfl
  have hinfos : makeRemoteInfos p fQ rQ.batches = (fQ.zip rQ.batches).map fun x =>
      ⟨ipagsOf p x.1, remoteEntries x.2⟩ := rfl
  have hzip : ∀ x ∈ fQ.zip rQ.batches, ∃ j : Nat, fQ[j]? = some x.1 ∧ rQ.batches[j]? = some x.2 := by
    intro x hx
    obtain ⟨j, hj⟩ := List.mem_iff_getElem?.1 hx
    exact ⟨j, List.getElem?_zip_eq_some.1 hj⟩
  -- one local group
  have hmm : ∀ (l : List (List (Fag A) × List (Batch U))) (F : RemoteInfo A → Option (List (Batch U))),
      (l.map fun x => (⟨ipagsOf p x.1, remoteEntries x.2⟩ : RemoteInfo A)).mapM F = l.zipIdx.mapM fun x => F ⟨ipagsOf p x.1.1, remoteEntries x.1.2⟩ := by
    intro l F
    conv_lhs => rw [← List.zipIdx_map_fst 0 l]
    rw [List.map_map]
    generalize l.zipIdx = z
    induction z with
    | nil => rfl
    | cons a z ih => rw [List.map_cons, List.mapM_cons, List.mapM_cons, ih]; rfl
  have hdef : (∀ i j aff pairs, pairs ≠ [] → (∀ x ∈ pairs, AdjPartPair tP tQ gP gQ fP fQ p i j aff x) →
        ∃ cn, cross j i aff pairs = some cn ∧ ∀ e < pairs.length, cn.close e e = true) →
      ∀ i ∈ List.range rP.batches.length, ∃ bs,
        partGroup cross sizes rP.batches (makeRemoteInfos p fQ rQ.batches) i = some bs := by
    intro hcross i _
    unfold partGroup
    rw [hinfos, hmm]
    apply mapM_flatten_defined
    rintro ⟨⟨fg, bs⟩, j⟩ hx
    have hx' := List.mem_zipIdx_iff_getElem?.1 hx
    obtain ⟨hf, hb⟩ := List.getElem?_zip_eq_some.1 hx'
    simp only at hf hb ⊢
    apply mapM_flatten_defined
    rintro ⟨ig, rows, aff⟩ hm
    simp only
    rw [hpairs i j fg bs ig rows aff hf hb hm]
    simp only [Option.bind_eq_bind, Option.bind_some]
    refine crossBatches_defined _ _ fun hne => hcross _ _ _ _ hne ?_
    obtain ⟨t', hm'⟩ := mem_ipagsOf.1 hm
    obtain ⟨rfl, _⟩ := sQ.igroup j fg hf ig t' rows aff hm'
    intro x hx
    obtain ⟨row, hrow', rfl⟩ := List.mem_map.1 hx
    obtain ⟨q1, q2⟩ := List.mem_filter.1 hrow'
    obtain ⟨i', el, hn, hac⟩ := hrow ig fg ig rows aff hf hm row q1
    obtain ⟨k1, _, k3⟩ := findGroup_of_global hn
    have : i' = i := by rw [k1] at q2; simpa using q2
    subst this
    rw [k3]
    exact hpair i' ig fg t' rows aff row el hf hm' q1 hn
  have hone : ∀ (i : Nat) bs, partGroup cross sizes rP.batches (makeRemoteInfos p fQ rQ.batches) i = some bs →
      (bs.flatMap Batch.moves).Perm (partMoves tP tQ gP gQ fP fQ p i) ∧
      ∀ b ∈ bs, b.toEls.length = b.fromEls.length ∧ b.toEls ≠ [] ∧
        ∃ cn tmpl aff pairs, cross b.fromGroup i aff pairs = some cn ∧ tmpl < pairs.length ∧
          b.nodes = cn.unit tmpl ∧ (∀ x ∈ pairs, AdjPartPair tP tQ gP gQ fP fQ p i b.fromGroup aff x) ∧
          ∀ x ∈ b.toEls.zip b.fromEls, ∃ e : Nat, pairs[e]? = some x ∧ cn.close tmpl e = true := by
    intro i bs hbs
    have hpm : partMoves tP tQ gP gQ fP fQ p i = (fQ.zip rQ.batches).zipIdx.flatMap fun x =>
        (ipagsOf p x.1.1).flatMap fun ir =>
        (ir.2.1.filter fun r => findGroupIndexFrom 0 r.nel sizes 0 == i).map fun r =>
          ((tagOrigins tQ gP fP i).idxOf ⟨r.nel - (baseElementNrs sizes).getD i 0, r.nface⟩, x.2,
            (tagOrigins tP gQ fQ x.2).idxOf ⟨r.el, r.face⟩) := by
      unfold partMoves
      have : fQ.zipIdx = (fQ.zip rQ.batches).zipIdx.map fun x => (x.1.1, x.2) := by
        apply List.ext_getElem?
        intro k
        rw [List.getElem?_map, List.getElem?_zipIdx, List.getElem?_zipIdx]
        by_cases hk : k < fQ.length
        · have hk2 : k < rQ.batches.length := by rw [hblQ, sQ.len]; exact hk
          rw [List.getElem?_eq_getElem hk, List.getElem?_zip_eq_some (z := (fQ[k], rQ.batches[k])) |>.2
            ⟨List.getElem?_eq_getElem hk, List.getElem?_eq_getElem hk2⟩]
          rfl
        · rw [List.getElem?_eq_none (by omega), List.getElem?_eq_none (by simp; omega)]
          rfl
      rw [this, List.flatMap_map]
    unfold partGroup at hbs
    rw [hinfos, hmm] at hbs
    rw [hpm]
    refine mapM_flatten_perm (m := Batch.moves) hbs ?_
    rintro ⟨⟨fg, bs1⟩, j⟩ hx r1 hr1
    have hx' := List.mem_zipIdx_iff_getElem?.1 hx
    obtain ⟨hf, hb⟩ := List.getElem?_zip_eq_some.1 hx'
    simp only at hf hb hr1 ⊢
    refine mapM_flatten_perm hr1 ?_
    rintro ⟨ig, rows, aff⟩ hm r2 hr2
    obtain ⟨t', hm'⟩ := mem_ipagsOf.1 hm
    obtain ⟨rfl, _⟩ := sQ.igroup j fg hf ig t' rows aff hm'
    simp only at hr2 ⊢
    rw [hpairs i ig fg bs1 ig rows aff hf hb hm] at hr2
    simp only [Option.bind_eq_bind, Option.bind_some] at hr2
    obtain ⟨h2, h3⟩ := crossBatches_moves hr2
    rw [List.map_map] at h2
    refine ⟨h2, fun b hbm => ?_⟩
    obtain ⟨rfl, hne, cn, tmpl, h6, h7, h8, h9⟩ := crossBatches_nodes hr2 hbm
    refine ⟨h3 b hbm, hne, cn, tmpl, aff, _, h6, h7, h8, ?_, h9⟩
    intro x hx
    obtain ⟨row, hrow', rfl⟩ := List.mem_map.1 hx
    obtain ⟨q1, q2⟩ := List.mem_filter.1 hrow'
    obtain ⟨i', el, hn, hac⟩ := hrow b.fromGroup fg b.fromGroup rows aff hf hm row q1
    obtain ⟨k1, _, k3⟩ := findGroup_of_global hn
    have : i' = i := by rw [k1] at q2; simpa using q2
    subst this
    rw [k3]
    exact hpair i' b.fromGroup fg t' rows aff row el hf hm' q1 hn
  -- the membership
  have hmoves : ∀ i t j s, (t, j, s) ∈ partMoves tP tQ gP gQ fP fQ p i ↔ ∃ el f el' f',
      AcrossParts fP q (gQ.map ElGroup.nelements) i el f j el' f' ∧
      (tagOrigins tQ gP fP i)[t]? = some ⟨el, f⟩ ∧ (tagOrigins tP gQ fQ j)[s]? = some ⟨el', f'⟩ := by
    intro i t j s
    unfold partMoves
    rw [List.mem_flatMap]
    constructor
    · rintro ⟨⟨fg, j'⟩, hx, hm⟩
      have hf := List.mem_zipIdx_iff_getElem?.1 hx
      simp only at hf hm
      obtain ⟨⟨ig, rows, aff⟩, hm1, hm2⟩ := List.mem_flatMap.1 hm
      obtain ⟨r, hr, he⟩ := List.mem_map.1 hm2
      simp only [Prod.mk.injEq] at he
      obtain ⟨rfl, rfl, rfl⟩ := he
      obtain ⟨hr1, hr2⟩ := List.mem_filter.1 hr
      obtain ⟨i', el, hn, hac⟩ := hrow j' fg ig rows aff hf hm1 r hr1
      obtain ⟨h1, h2, h3⟩ := findGroup_of_global hn
      have : i' = i := by
        have hr2' : findGroupIndexFrom 0 r.nel sizes 0 = i := by simpa using hr2
        omega
      subst this
      have hac' := (symm _ _ _ _ _ _).2 hac
      refine ⟨el, r.nface, r.el, r.face, hac', ?_, ?_⟩
      · rw [← hsizes, h3]
        exact getElem?_idxOf' (((tagOrigins_props sP i').2 _ _).2 ⟨_, _, _, hac'⟩)
      · exact getElem?_idxOf' (((tagOrigins_props sQ j').2 _ _).2 ⟨_, _, _, hac⟩)
    · rintro ⟨el, f, el', f', hac, h1, h2⟩
      obtain ⟨fg, ig, t', rows, aff, nel, g1, g2, g3, g4⟩ := (symm _ _ _ _ _ _).1 hac
      obtain ⟨k1, k2, k3⟩ := findGroup_of_global g4
      refine ⟨(fg, j), List.mem_zipIdx_iff_getElem?.2 g1, List.mem_flatMap.2 ⟨(ig, rows, aff),
        mem_ipagsOf.2 ⟨t', g2⟩, List.mem_map.2 ⟨⟨el', f', nel, f⟩, List.mem_filter.2 ⟨g3, ?_⟩, ?_⟩⟩⟩
      · simp only [beq_iff_eq]
        rw [hsizes] at k1
        exact k1
      · simp only [Prod.mk.injEq, true_and]
        rw [← hsizes, k3]
        exact ⟨idxOf_of_getElem? (tagOrigins_props sP i).1 h1, idxOf_of_getElem? (tagOrigins_props sQ j).1 h2⟩
  -- moves without repetition
  have hnodup : ∀ i, ((partMoves tP tQ gP gQ fP fQ p i)).Nodup := by
    intro i
    unfold partMoves
    rw [List.nodup_flatMap]
    constructor
    · rintro ⟨fg, j⟩ hx
      have hf := List.mem_zipIdx_iff_getElem?.1 hx
      simp only at hf ⊢
      have hj : j < gQ.length := sQ.len ▸ (List.getElem?_eq_some_iff.1 hf).1
      have hnd := sQ.nodup j _ _ (List.getElem?_eq_getElem hj) hf
      rw [groupFaces_eq_ipags _ _ (sQ.tagged _ (List.mem_of_getElem? hf)), ← List.map_flatMap] at hnd
      rw [← List.map_flatMap, ← List.filter_flatMap]
      refine List.Nodup.map_on ?_ ((List.Nodup.of_map _ hnd).filter _)
      intro a ha b hb hab
      simp only [Prod.mk.injEq, true_and] at hab
      have hmem : ∀ a ∈ ((ipagsOf p fg).flatMap fun x => x.2.1), (⟨a.el, a.face⟩ : ElFace) ∈
          tagOrigins tP gQ fQ j := by
        intro a ha
        obtain ⟨⟨ig, rows, aff⟩, h1, h2⟩ := List.mem_flatMap.1 ha
        obtain ⟨_, _, _, hac⟩ := hrow j fg ig rows aff hf h1 a h2
        exact ((tagOrigins_props sQ j).2 _ _).2 ⟨_, _, _, hac⟩
      have h1 := getElem?_idxOf' (hmem a (List.mem_filter.1 ha).1)
      have h2 := getElem?_idxOf' (hmem b (List.mem_filter.1 hb).1)
      rw [hab.2, h2] at h1
      exact (List.nodup_map_iff_inj_on (List.Nodup.of_map _ hnd)).1 hnd a (List.mem_filter.1 ha).1 b
        (List.mem_filter.1 hb).1 (Option.some.inj h1).symm
    · have hp : fQ.zipIdx.Pairwise fun a b => a.2 ≠ b.2 := by
        have := List.nodup_range (n := fQ.length)
        have h2 : (fQ.zipIdx.map Prod.snd).Nodup := by
          rw [List.zipIdx_map_snd]
          exact List.nodup_range'
        rw [List.Nodup, List.pairwise_map] at h2
        exact h2
      refine List.Pairwise.imp ?_ hp
      intro a b hab
      simp only [Function.onFun]
      rw [List.disjoint_left]
      intro x hx hy
      obtain ⟨_, _, hx2⟩ := List.mem_flatMap.1 hx
      obtain ⟨_, _, rfl⟩ := List.mem_map.1 hx2
      obtain ⟨_, _, hy2⟩ := List.mem_flatMap.1 hy
      obtain ⟨_, _, he⟩ := List.mem_map.1 hy2
      simp only [Prod.mk.injEq] at he
      exact hab he.2.1.symm
  refine ⟨fun hcross => ?_, fun conn hconn => ?_⟩
  · have hB := hdef hcross
    choose! B hB1 using hB
    refine ⟨(List.range rP.batches.length).map B, ?_⟩
    unfold makePartConn
    rw [if_neg]
    · apply mapM_some_eq_map
      exact hB1
    · simp only [Bool.or_eq_true, not_or, Bool.not_eq_true, List.any_eq_false, bne_eq_false_iff_eq]
      refine ⟨⟨by rw [hsizes, List.length_map, hblP], ?_⟩, ?_⟩
      · intro info hinfo
        rw [hinfos] at hinfo
        obtain ⟨x, hx, rfl⟩ := List.mem_map.1 hinfo
        obtain ⟨j, hj1, hj2⟩ := hzip x hx
        simp only [Bool.and_eq_false_iff, Bool.not_eq_false', List.isEmpty_iff,
          List.isEmpty_eq_false_iff]
        by_cases he : ipagsOf p x.1 = []
        · simp [he]
        · obtain ⟨⟨ig, rows, aff⟩, hm⟩ := List.exists_mem_of_ne_nil _ he
          obtain ⟨t', hm'⟩ := mem_ipagsOf.1 hm
          obtain ⟨_, hne⟩ := sQ.igroup j x.1 hj1 ig t' rows aff hm'
          obtain ⟨r, hr⟩ := List.exists_mem_of_ne_nil _ hne
          obtain ⟨i, el, hn, hac⟩ := hrow j x.1 ig rows aff hj1 hm r hr
          have e2 := hlookQ j x.2 hj2 r.el r.face (((tagOrigins_props sQ j).2 _ _).2 ⟨_, _, _, hac⟩)
          refine Or.inr fun hnil => ?_
          rw [← remoteEntries_lookup, hnil] at e2
          simp at e2
      · intro info hinfo
        rw [hinfos] at hinfo
        obtain ⟨x, hx, rfl⟩ := List.mem_map.1 hinfo
        obtain ⟨j, hj1, hj2⟩ := hzip x hx
        simp only
        rintro ⟨ig, rows, aff⟩ hm r hr
        obtain ⟨i, el, hn, _⟩ := hrow j x.1 ig rows aff hj1 hm r hr
        obtain ⟨h1, h2, _⟩ := findGroup_of_global hn
        rw [decide_eq_false_iff_not]
        omega
  obtain ⟨hol, hgrp⟩ := makePartConn_groups hconn
  refine ⟨⟨by rw [hol, hcP2], ?_⟩, fun i bs hbs => (hone i bs (hgrp i bs hbs)).2⟩
  · intro i bs hbs
    have hil : i < rP.batches.length := hol ▸ (List.getElem?_eq_some_iff.1 hbs).1
    obtain ⟨hp, hq⟩ := hone i bs (hgrp i bs hbs)
    refine ⟨?_, ?_⟩
    · have hi : i < gP.length := hblP ▸ hil
      have hg := List.getElem?_eq_getElem hi
      have hf := List.getElem?_eq_getElem (sP.len ▸ hi : i < fP.length)
      obtain ⟨hels, _⟩ := C27_elements hP sP.len (fun _ => hnfP) hg hf (hnfP _ (List.mem_of_getElem? hg))
        fun ef hef => (sP.valid i _ _ hg hf ef hef).2
      simp only [bdryGroupNr, Bool.false_eq_true, if_false, origins] at hels
      refine ⟨_, hels, ?_⟩
      have hO : tagOrigins tQ gP fP i = byFace gP[i].nfaces
          (groupFaces (.tag tQ) gP[i].nelements gP[i].nfaces (fP[i]'(sP.len ▸ hi))) := by
        simp only [tagOrigins, hg, hf]
      rw [List.length_map, ← hO]
      have h1 : bs.flatMap Batch.toEls = (bs.flatMap Batch.moves).map Prod.fst := by
        rw [List.map_flatMap]
        apply List.flatMap_congr
        intro b hb
        simp only [Batch.moves, List.map_map]
        have : (Prod.fst ∘ fun p : Nat × Nat => (p.1, b.fromGroup, p.2)) = Prod.fst := rfl
        rw [this, List.map_fst_zip (by rw [(hq b hb).1])]
      rw [h1]
      refine (hp.map _).trans ?_
      rw [List.perm_ext_iff_of_nodup _ List.nodup_range]
      · intro t
        rw [List.mem_map, List.mem_range]
        constructor
        · rintro ⟨⟨t', j, s⟩, hm, rfl⟩
          obtain ⟨_, _, _, _, _, h2, _⟩ := (hmoves i t' j s).1 hm
          exact (List.getElem?_eq_some_iff.1 h2).1
        · intro ht
          have hget := List.getElem?_eq_getElem ht
          rcases hef : (tagOrigins tQ gP fP i)[t] with ⟨el, f⟩
          rw [hef] at hget
          obtain ⟨j, el', f', hac⟩ := ((tagOrigins_props sP i).2 el f).1 (List.mem_of_getElem? hget)
          have hm2 := ((tagOrigins_props sQ j).2 el' f').2 ⟨_, _, _, (symm _ _ _ _ _ _).1 hac⟩
          exact ⟨(t, j, _), (hmoves i t j _).2 ⟨el, f, el', f', hac, hget, getElem?_idxOf' hm2⟩, rfl⟩
      · refine List.Nodup.map_on ?_ (hnodup i)
        rintro ⟨t, j, s⟩ hm ⟨t', j', s'⟩ hm' he
        simp only at he
        subst he
        obtain ⟨el, f, e1, f1, a1, a2, a3⟩ := (hmoves _ _ _ _).1 hm
        obtain ⟨el', f', e2, f2, b1, b2, b3⟩ := (hmoves _ _ _ _).1 hm'
        rw [a2] at b2
        simp only [Option.some.injEq, ElFace.mk.injEq] at b2
        obtain ⟨rfl, rfl⟩ := b2
        obtain ⟨rfl, rfl, rfl⟩ := acrossParts_unique sP a1 b1
        have hl := (List.getElem?_eq_some_iff.1 a3).1
        rw [(List.getElem?_inj hl (tagOrigins_props sQ j).1).1 (a3.trans b3.symm)]
    · intro t j s
      rw [hp.mem_iff]
      exact hmoves i t j s

/-- C54: if part `p` makes its connection to part `q`, it sets each of its boundary elements exactly once, from
the boundary element of part `q` for the face on the other side. -/
theorem C54_moves
    (hP : makeFaceRestriction false un res (.tag tQ) nv gP fP = some rP)
    (hQ : makeFaceRestriction false un' res' (.tag tP) nv' gQ fQ = some rQ)
    (hnfP : ∀ g ∈ gP, 0 < g.nfaces) (hnfQ : ∀ g ∈ gQ, 0 < g.nfaces)
    (sP : PartSide gP fP tQ q (gQ.map ElGroup.nelements))
    (sQ : PartSide gQ fQ tP p (gP.map ElGroup.nelements))
    (symm : ∀ i el f j el' f', AcrossParts fP q (gQ.map ElGroup.nelements) i el f j el' f' ↔
      AcrossParts fQ p (gP.map ElGroup.nelements) j el' f' i el f)
    {cross : Nat → Nat → A → List (Nat × Nat) → Option (CrossNodes U)} {conn : List (List (Batch U))}
    (hconn : makePartConn cross (gP.map ElGroup.nelements) rP.batches (makeRemoteInfos p fQ rQ.batches) =
        some conn) :
    conn.length = rP.groups.length ∧
      ∀ (i : Nat) bs, conn[i]? = some bs →
        (∃ els, rP.groups[i]? = some els ∧ (bs.flatMap Batch.toEls).Perm (List.range els.length)) ∧
        ∀ t j s, (t, j, s) ∈ bs.flatMap Batch.moves ↔ ∃ el f el' f',
          AcrossParts fP q (gQ.map ElGroup.nelements) i el f j el' f' ∧
          (tagOrigins tQ gP fP i)[t]? = some ⟨el, f⟩ ∧ (tagOrigins tP gQ fQ j)[s]? = some ⟨el', f'⟩ :=
  ((partConn_all hP hQ hnfP hnfQ sP sQ symm cross).2 conn hconn).1

/-- C54: given the information of part `q` about its boundary with part `p`, part `p` makes a connection that
sets each of its boundary elements exactly once, from the boundary element of part `q` for the face on the
other side. -/
theorem C54_partition_connection
    (hP : makeFaceRestriction false un res (.tag tQ) nv gP fP = some rP)
    (hQ : makeFaceRestriction false un' res' (.tag tP) nv' gQ fQ = some rQ)
    (hnfP : ∀ g ∈ gP, 0 < g.nfaces) (hnfQ : ∀ g ∈ gQ, 0 < g.nfaces)
    (sP : PartSide gP fP tQ q (gQ.map ElGroup.nelements))
    (sQ : PartSide gQ fQ tP p (gP.map ElGroup.nelements))
    (symm : ∀ i el f j el' f', AcrossParts fP q (gQ.map ElGroup.nelements) i el f j el' f' ↔
      AcrossParts fQ p (gP.map ElGroup.nelements) j el' f' i el f)
    (cross : Nat → Nat → A → List (Nat × Nat) → Option (CrossNodes U))
    (hcross : ∀ i j aff pairs, pairs ≠ [] → (∀ x ∈ pairs, AdjPartPair tP tQ gP gQ fP fQ p i j aff x) →
      ∃ cn, cross j i aff pairs = some cn ∧ ∀ e < pairs.length, cn.close e e = true) :
    ∃ conn, makePartConn cross (gP.map ElGroup.nelements) rP.batches (makeRemoteInfos p fQ rQ.batches) =
        some conn ∧ conn.length = rP.groups.length ∧
      ∀ (i : Nat) bs, conn[i]? = some bs →
        (∃ els, rP.groups[i]? = some els ∧ (bs.flatMap Batch.toEls).Perm (List.range els.length)) ∧
        ∀ t j s, (t, j, s) ∈ bs.flatMap Batch.moves ↔ ∃ el f el' f',
          AcrossParts fP q (gQ.map ElGroup.nelements) i el f j el' f' ∧
          (tagOrigins tQ gP fP i)[t]? = some ⟨el, f⟩ ∧ (tagOrigins tP gQ fQ j)[s]? = some ⟨el', f'⟩ := by
  obtain ⟨conn, hconn⟩ := (partConn_all hP hQ hnfP hnfQ sP sQ symm cross).1 hcross
  exact ⟨conn, hconn, C54_moves hP hQ hnfP hnfQ sP sQ symm hconn⟩

end two
end

/-- Part 0 of the example: two groups of one triangle each. -/
def exPartP : List (ElGroup Nat) :=
  [⟨0, [[0, 1], [1, 2], [0, 2]], [[0, 1, 2]], [10]⟩, ⟨1, [[0, 1], [1, 2], [0, 2]], [[1, 3, 2]], [11]⟩]

/-- Part 1: one group of two triangles. -/
def exPartQ : List (ElGroup Nat) := [⟨0, [[0, 1], [1, 2], [0, 2]], [[0, 1, 2], [1, 3, 2]], [20, 21]⟩]

/-- Adjacency of part 0 to part 1. -/
def exPartFP : List (List (Fag Unit)) :=
  [[.interPart 0 (.partition 1) 1 [⟨0, 2, 1, 0⟩] ()], [.interPart 1 (.partition 1) 1 [⟨0, 1, 0, 2⟩] ()]]

/-- Adjacency of part 1 to part 0. -/
def exPartFQ : List (List (Fag Unit)) :=
  [[.boundary 0 .all [⟨0, 0⟩], .interPart 0 (.partition 0) 0 [⟨1, 0, 0, 2⟩, ⟨0, 2, 1, 1⟩] ()]]

theorem exPartP_side : PartSide exPartP exPartFP (.partition 1) 1 [2] := by
  refine ⟨rfl, ?_, ?_, ?_, ?_, ?_⟩
  · intro fg hfg fag hfag
    simp only [exPartFP, List.mem_cons, List.not_mem_nil, or_false] at hfg
    rcases hfg with rfl | rfl <;> simp only [List.mem_singleton] at hfag <;> subst hfag <;>
      exact ⟨fun _ => ⟨_, _, _, _, rfl⟩, fun _ => ⟨_, rfl⟩⟩
  · intro i fg hfg ig t' rows aff hm
    match i with
    | 0 => cases hfg; simp at hm; simp [hm]
    | 1 => cases hfg; simp at hm; simp [hm]
    | i + 2 => simp [exPartFP] at hfg
  · intro i grp fg hg hfg
    match i with
    | 0 => cases hfg; cases hg; decide
    | 1 => cases hfg; cases hg; decide
    | i + 2 => simp [exPartFP] at hfg
  · intro fg hfg ig t' rows aff hm
    simp only [exPartFP, List.mem_cons, List.not_mem_nil, or_false] at hfg
    rcases hfg with rfl | rfl <;> simp at hm <;> obtain ⟨_, _, rfl⟩ := hm <;> decide
  · intro i grp fg hg hfg
    match i with
    | 0 => cases hfg; cases hg; decide
    | 1 => cases hfg; cases hg; decide
    | i + 2 => simp [exPartFP] at hfg

theorem exPartQ_side : PartSide exPartQ exPartFQ (.partition 0) 0 [1, 1] := by
  refine ⟨rfl, ?_, ?_, ?_, ?_, ?_⟩
  · intro fg hfg fag hfag
    simp only [exPartFQ, List.mem_cons, List.not_mem_nil, or_false] at hfg
    subst hfg
    simp only [List.mem_cons, List.not_mem_nil, or_false] at hfag
    rcases hfag with rfl | rfl
    · simp [Fag.bdry?]
    · exact ⟨fun _ => ⟨_, _, _, _, rfl⟩, fun _ => ⟨_, rfl⟩⟩
  · intro i fg hfg ig t' rows aff hm
    match i with
    | 0 => cases hfg; simp at hm; simp [hm]
    | i + 1 => simp [exPartFQ] at hfg
  · intro i grp fg hg hfg
    match i with
    | 0 => cases hfg; cases hg; decide
    | i + 1 => simp [exPartFQ] at hfg
  · intro fg hfg ig t' rows aff hm
    simp only [exPartFQ, List.mem_cons, List.not_mem_nil, or_false] at hfg
    subst hfg
    simp at hm
    obtain ⟨_, _, rfl⟩ := hm
    decide
  · intro i grp fg hg hfg
    match i with
    | 0 => cases hfg; cases hg; decide
    | i + 1 => simp [exPartFQ] at hfg

theorem exPart_symm (i el f j el' f' : Nat) :
    AcrossParts exPartFP 1 [2] i el f j el' f' ↔ AcrossParts exPartFQ 0 [1, 1] j el' f' i el f := by
  have h1 : ∀ j e n, IsGlobalNr [2] j e n ↔ j = 0 ∧ e = n ∧ n < 2 := by
    intro j e n
    constructor
    · rintro ⟨m, h1, h2, h3⟩
      match j with
      | 0 => simp at h1 h3; omega
      | j + 1 => simp at h1
    · rintro ⟨rfl, rfl, h⟩
      exact ⟨2, rfl, h, by simp⟩
  have h2 : ∀ j e n, IsGlobalNr [1, 1] j e n ↔ e = 0 ∧ j = n ∧ n < 2 := by
    intro j e n
    constructor
    · rintro ⟨m, h1, h2, h3⟩
      match j with
      | 0 => simp at h1 h3; omega
      | 1 => simp at h1 h3; omega
      | j + 2 => simp at h1
    · rintro ⟨rfl, rfl, h⟩
      match j with
      | 0 => exact ⟨1, rfl, by omega, by simp⟩
      | 1 => exact ⟨1, rfl, by omega, by simp⟩
      | j + 2 => omega
  constructor
  · rintro ⟨fg, ig, t, rows, aff, nel, g1, g2, g3, g4⟩
    rw [h1] at g4
    obtain ⟨rfl, rfl, g5⟩ := g4
    match i with
    | 0 =>
      cases g1
      simp at g2
      obtain ⟨_, _, rfl⟩ := g2
      simp at g3
      obtain ⟨rfl, rfl, rfl, rfl⟩ := g3
      exact ⟨_, _, _, _, _, 0, rfl, List.mem_cons_of_mem _ List.mem_cons_self, by decide, (h2 _ _ _).2 (by omega)⟩
    | 1 =>
      cases g1
      simp at g2
      obtain ⟨_, _, rfl⟩ := g2
      simp at g3
      obtain ⟨rfl, rfl, rfl, rfl⟩ := g3
      exact ⟨_, _, _, _, _, 1, rfl, List.mem_cons_of_mem _ List.mem_cons_self, by decide, (h2 _ _ _).2 (by omega)⟩
    | i + 2 => simp [exPartFP] at g1
  · rintro ⟨fg, ig, t, rows, aff, nel, g1, g2, g3, g4⟩
    rw [h2] at g4
    obtain ⟨rfl, rfl, g5⟩ := g4
    match j with
    | 0 =>
      cases g1
      simp at g2
      obtain ⟨_, _, rfl⟩ := g2
      simp at g3
      rcases g3 with ⟨rfl, rfl, rfl, rfl⟩ | ⟨rfl, rfl, rfl, rfl⟩
      · exact ⟨_, _, _, _, _, 1, rfl, List.mem_cons_self, by decide, (h1 _ _ _).2 (by omega)⟩
      · exact ⟨_, _, _, _, _, 0, rfl, List.mem_cons_self, by decide, (h1 _ _ _).2 (by omega)⟩
    | j + 1 => simp [exPartFQ] at g1

example : (do
    let rP ← makeFaceRestriction false (fun _ _ => 0) (fun _ f n => (f, n)) (.tag (.partition 1)) 4 exPartP exPartFP
    let rQ ← makeFaceRestriction false (fun _ _ => 0) (fun _ f n => (f, n)) (.tag (.partition 0)) 4 exPartQ exPartFQ
    let c ← makePartConn (fun _ _ _ _ => some ⟨fun a b => a == b, id⟩) [1, 1] rP.batches
      (makeRemoteInfos 0 exPartFQ rQ.batches)
    some (c.map fun bs => bs.flatMap Batch.moves)) = some [[(0, 0, 0)], [(0, 0, 1)]] := by decide +kernel

end Meshmode
