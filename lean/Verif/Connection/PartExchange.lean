import Verif.Connection.PartConn
import Verif.Partition.Props

/-!
# Exchange of face data on a partitioned mesh (C102)

The connections of the parts made by `partition_mesh` (meshmode/mesh/processing.py), `make_opposite_face_connection`
and `make_partition_connection` (meshmode/discretization/connection/opposite_face.py), compared with the opposite-face
connection of the whole mesh.  All functions are modelled in other modules; this one adds no model.
-/
namespace Meshmode

variable {N P A U M : Type}

/-! ## Specification -/

/-- A mesh with valid, symmetric interior adjacency that is not itself a part, and valid lists of elements.
(Specification or proof vocabulary, no code.) -/
structure Partitioned (m : MMesh N P A) (parts : Parts) : Prop where
  adj : AdjOK m
  interior : InteriorOK m.groups m.fags
  ids : (parts.map Prod.fst).Nodup
  sorted : ∀ p ∈ parts, p.2.Pairwise (· < ·)
  whole : ∀ l ∈ m.fags, ∀ fg ∈ l, ∀ q fs, fg.bdry? ≠ some (.partition q, fs)

/-- Boundary element `t'` of a list of a part and `t` of a list of the whole mesh are the same face, of group `g`.
(Specification or proof vocabulary, no code.) -/
def SameBdry (m pm : MMesh N P A) (sel : List Nat) (origins' origins : List ElFace) (g t' t : Nat) : Prop :=
  ∃ el' el f, origins'[t']? = some ⟨el', f⟩ ∧ origins[t]? = some ⟨el, f⟩ ∧ SameElem m pm sel g el' el

/-- The value that a connection puts on boundary element `t`, if the values on its source elements are `u`.
(Specification or proof vocabulary, no code.) -/
def movedValue {X : Type} (bs : List (Batch U)) (u : Nat → Nat → X) (t : Nat) : Option X :=
  ((bs.flatMap Batch.moves).lookup t).map fun js => u js.1 js.2

/-- The boundaries of a part: the interior one (`none`) and one for each part.
(Specification or proof vocabulary, no code.) -/
def exchangeSides (parts : Parts) : List (Option Nat) := none :: parts.map fun x => some x.1

/-- The boundary elements of a part in one of these boundaries. (Specification or proof vocabulary, no code.) -/
def sideOrigins (pm : MMesh N P A) (o : Option Nat) (i : Nat) : List ElFace :=
  match o with
  | none => interiorOrigins pm.groups pm.fags i
  | some q => tagOrigins (.partition q) pm.groups pm.fags i

/-! ## Lemmas -/

theorem nodup_filterMap_key {α β κ κ' : Type} {R : List α} {F : α → Option β} {key : α → κ} {key' : β → κ'}
    (h : (R.map key).Nodup)
    (hF : ∀ a ∈ R, ∀ b ∈ R, ∀ x y, F a = some x → F b = some y → key' x = key' y → key a = key b) :
    ((R.filterMap F).map key').Nodup := by
  induction R with
  | nil => simp
  | cons a R ih =>
    rw [List.map_cons, List.nodup_cons] at h
    have ih' := ih h.2 fun a ha b hb => hF a (List.mem_cons_of_mem _ ha) b (List.mem_cons_of_mem _ hb)
    cases hx : F a with
    | none => rw [List.filterMap_cons_none hx]; exact ih'
    | some x =>
      rw [List.filterMap_cons_some hx, List.map_cons, List.nodup_cons]
      refine ⟨?_, ih'⟩
      intro hm
      obtain ⟨y, hy, hxy⟩ := List.mem_map.1 hm
      obtain ⟨b, hb, hby⟩ := List.mem_filterMap.1 hy
      exact h.1 (List.mem_map.2 ⟨b, hb, (hF a List.mem_cons_self b (List.mem_cons_of_mem _ hb) x y hx hby hxy.symm).symm⟩)

theorem flatMap_ite_key {α β : Type} {C : List (Nat × α)} (h : (C.map Prod.fst).Nodup) (q : Nat)
    (G : Nat × α → List β) :
    (C.flatMap fun x => if x.1 = q then G x else []) = [] ∨
    ∃ x ∈ C, x.1 = q ∧ (C.flatMap fun x => if x.1 = q then G x else []) = G x := by
  induction C with
  | nil => simp
  | cons a C ih =>
    rw [List.map_cons, List.nodup_cons] at h
    rw [List.flatMap_cons]
    by_cases ha : a.1 = q
    · right
      refine ⟨a, List.mem_cons_self, ha, ?_⟩
      have : (C.flatMap fun x => if x.1 = q then G x else []) = [] := by
        rw [List.flatMap_eq_nil_iff]
        intro x hx
        rw [if_neg]
        rintro rfl
        exact h.1 (ha ▸ List.mem_map.2 ⟨x, hx, rfl⟩)
      rw [if_pos ha, this, List.append_nil]
    · rw [if_neg ha, List.nil_append]
      rcases ih h.2 with h1 | ⟨x, hx, h1, h2⟩
      · exact Or.inl h1
      · exact Or.inr ⟨x, List.mem_cons_of_mem _ hx, h1, h2⟩

/-- The faces of an adjacency group that have the tag of part `q`. (Specification or proof vocabulary, no code.) -/
def tagFacesOf (q : Nat) (fag : Fag A) : List ElFace :=
  match fag.bdry? with
  | some (t', fs) => if t' = BTag.partition q then fs else []
  | none => []

theorem groupFaces_tag (q n k : Nat) (l : List (Fag A)) :
    groupFaces (.tag (.partition q)) n k l = l.flatMap (tagFacesOf q) := rfl

/-- Rows of the interior adjacency groups, with the neighbour group. (Specification or proof vocabulary, no code.) -/
def allRows (l : List (Fag A)) : List (Nat × AdjRow) :=
  l.flatMap fun
    | .interior _ j rows _ => rows.map fun r => (j, r)
    | _ => []

theorem allRows_faces (l : List (Fag A)) :
    (l.flatMap fun fag => fag.interiorRows.map fun r => (⟨r.el, r.face⟩ : ElFace)) =
      (allRows l).map fun x => (⟨x.2.el, x.2.face⟩ : ElFace) := by
  unfold allRows
  rw [List.map_flatMap]
  apply List.flatMap_congr
  intro fag _
  cases fag <;> simp [Fag.interiorRows]

theorem mem_allRows {l : List (Fag A)} {j : Nat} {r : AdjRow} :
    (j, r) ∈ allRows l ↔ ∃ a rows aff, Fag.interior a j rows aff ∈ l ∧ r ∈ rows := by
  unfold allRows
  rw [List.mem_flatMap]
  constructor
  · rintro ⟨fag, h1, h2⟩
    cases fag with
    | interior a j' rows aff =>
      obtain ⟨r', hr, he⟩ := List.mem_map.1 h2
      simp only [Prod.mk.injEq] at he
      obtain ⟨rfl, rfl⟩ := he
      exact ⟨a, rows, aff, h1, hr⟩
    | boundary => simp at h2
    | interPart => simp at h2
  · rintro ⟨a, rows, aff, h1, h2⟩
    exact ⟨_, h1, List.mem_map.2 ⟨r, h2, rfl⟩⟩

theorem selfToSelf_rows (m : MMesh N P A) (table : List (Option (Nat × Nat))) (self : Nat) (sb : Nat → Nat) (i : Nat)
    (l : List (Fag A)) :
    ((selfToSelf m table self sb i l).flatMap fun fag => fag.interiorRows) =
      (allRows l).filterMap fun x => selfRow m table self sb i x.1 x.2 := by
  induction l with
  | nil => rfl
  | cons fag l ih =>
    have e2 : allRows (fag :: l) = (match fag with
        | .interior _ j rows _ => rows.map fun r => (j, r)
        | _ => []) ++ allRows l := by
      unfold allRows
      rw [List.flatMap_cons]
    rw [e2, List.filterMap_append, ← ih]
    unfold selfToSelf
    cases fag with
    | interior a j rows aff =>
      simp only [List.filterMap_map, Function.comp_def]
      by_cases he : (rows.filterMap (selfRow m table self sb i j)).isEmpty
      · rw [List.filterMap_cons_none (by simp only [he, if_true])]
        rw [List.isEmpty_iff] at he
        rw [show (rows.filterMap fun x => selfRow m table self sb i j x) = [] from he, List.nil_append]
      · rw [List.filterMap_cons_some (by simp only [he]; rfl), List.flatMap_cons, Fag.interiorRows]
    | boundary => simp
    | interPart => simp

theorem selfToOther_faces (m : MMesh N P A) (table : List (Option (Nat × Nat))) (self : Nat) (sb : Nat → Nat)
    {C : List (Nat × Nat)} (hC : (C.map Prod.fst).Nodup) (i q : Nat) (l : List (Fag A)) :
    ((selfToOther m table self sb C i l).flatMap (tagFacesOf q)) = [] ∨
    ∃ qi, (q, qi) ∈ C ∧ ((selfToOther m table self sb C i l).flatMap (tagFacesOf q)) =
      ((allRows l).filterMap fun x => otherRow m table self sb i x.1 qi x.2).map
        fun r => (⟨r.el, r.face⟩ : ElFace) := by
  have hone : ∀ (j : Nat) (rows : List AdjRow) (aff : A), ((C.filterMap fun q : Nat × Nat =>
      let rows' := rows.filterMap (otherRow m table self sb i j q.2)
      if rows'.isEmpty then none
      else some (Fag.interPart i (.partition q.1) q.1 rows' aff)).flatMap (tagFacesOf q)) =
        C.flatMap fun x => if x.1 = q then
          (rows.filterMap (otherRow m table self sb i j x.2)).map fun r => (⟨r.el, r.face⟩ : ElFace) else [] := by
    intro j rows aff
    clear hC
    induction C with
    | nil => rfl
    | cons x C ih =>
      rw [List.flatMap_cons, ← ih]
      by_cases he : (rows.filterMap (otherRow m table self sb i j x.2)).isEmpty
      · rw [List.filterMap_cons_none (by simp only [he, if_true])]
        rw [List.isEmpty_iff] at he
        rw [he]
        simp
      · rw [List.filterMap_cons_some (by simp only [he]; rfl), List.flatMap_cons]
        congr 1
        simp only [tagFacesOf, Fag.bdry?, BTag.partition.injEq]
  have hall : ((selfToOther m table self sb C i l).flatMap (tagFacesOf q)) = l.flatMap fun
        | .interior _ j rows _ => C.flatMap fun x => if x.1 = q then
          (rows.filterMap (otherRow m table self sb i j x.2)).map fun r => (⟨r.el, r.face⟩ : ElFace) else []
        | _ => [] := by
    unfold selfToOther
    rw [List.flatMap_assoc]
    apply List.flatMap_congr
    intro fag _
    cases fag with
    | interior a j rows aff => exact hone j rows aff
    | boundary => rfl
    | interPart => rfl
  rw [hall]
  by_cases hq : ∃ qi, (q, qi) ∈ C
  · obtain ⟨qi, hqi⟩ := hq
    right
    refine ⟨qi, hqi, ?_⟩
    have hu : ∀ G : Nat × Nat → List ElFace, (C.flatMap fun x => if x.1 = q then G x else []) = G (q, qi) := by
      intro G
      have := List.nodup_iff_injective_get.1 hC
      have huniq : ∀ x ∈ C, x.1 = q → x = (q, qi) := fun x hx h => List.inj_on_of_nodup_map hC hx hqi h
      rcases flatMap_ite_key hC q G with h1 | ⟨x, hx, h1, h2⟩
      · rw [h1]
        rw [List.flatMap_eq_nil_iff] at h1
        have := h1 _ hqi
        simp only [if_true] at this
        exact this.symm
      · rw [h2, huniq x hx h1]
    unfold allRows
    rw [List.filterMap_flatMap, List.map_flatMap]
    apply List.flatMap_congr
    intro fag _
    cases fag with
    | interior a j rows aff =>
      simp only
      rw [hu]
      simp only [List.filterMap_map, Function.comp_def]
    | boundary => rfl
    | interPart => rfl
  · left
    rw [List.flatMap_eq_nil_iff]
    intro fag _
    cases fag with
    | interior a j rows aff =>
      simp only
      rw [List.flatMap_eq_nil_iff]
      intro x hx
      rw [if_neg]
      rintro rfl
      exact hq ⟨x.2, hx⟩
    | boundary => rfl
    | interPart => rfl

/-! ## Elements and adjacency of parts -/

theorem sameElem_fun {m pm : MMesh N P A} {sel : List Nat} {g i' i₁ i₂ : Nat} (h₁ : SameElem m pm sel g i' i₁)
    (h₂ : SameElem m pm sel g i' i₂) : i₁ = i₂ := by
  obtain ⟨k, e, hk, ⟨_, _, _, a1⟩, ⟨_, _, _, a2⟩⟩ := h₁
  obtain ⟨k', e', hk', ⟨_, _, _, b1⟩, ⟨_, _, _, b2⟩⟩ := h₂
  obtain rfl : k = k' := by omega
  rw [hk] at hk'
  have := Option.some.inj hk'
  omega

theorem sameElem_inj {m pm : MMesh N P A} {sel : List Nat} (hnd : sel.Nodup) {g i₁ i₂ i : Nat}
    (h₁ : SameElem m pm sel g i₁ i) (h₂ : SameElem m pm sel g i₂ i) : i₁ = i₂ := by
  obtain ⟨k, e, hk, ⟨_, _, _, a1⟩, ⟨_, _, _, a2⟩⟩ := h₁
  obtain ⟨k', e', hk', ⟨_, _, _, b1⟩, ⟨_, _, _, b2⟩⟩ := h₂
  obtain rfl : e = e' := by omega
  have : k = k' := (List.getElem?_inj (List.getElem?_eq_some_iff.1 hk).1 hnd).1 (hk.trans hk'.symm)
  omega

theorem across_iff_via {m : MMesh N P A} (ha : AdjOK m) {i el f j el' f' : Nat} :
    Across m.fags i el f j el' f' ↔ ∃ aff, IsNeighborVia m.fags aff ⟨i, el, f⟩ ⟨j, el', f'⟩ := by
  constructor
  · rintro ⟨fg, hfg, ig, rows, aff, hm, hr⟩
    obtain ⟨rfl, _⟩ := ha.interior _ _ _ _ _ _ hfg hm
    exact ⟨aff, fg, rows, hfg, hm, hr⟩
  · rintro ⟨aff, l, rows, hl, hm, hr⟩
    exact ⟨l, hl, i, rows, aff, hm, hr⟩

section
variable {m : MMesh N P A} {parts : Parts} {p q : Nat} {pm qm : MMesh N P A} {selp selq : List Nat}

theorem Partitioned.spec (hP : Partitioned m parts) (hp : getMeshPart m parts p = .ok pm)
    (hsel : (p, selp) ∈ parts) : ∃ pidx required, PartSpec m parts p pm pidx selp required ∧
      ValidParts (nelements m.sizes) parts := by
  obtain ⟨pidx, sel', required, hs⟩ := getMeshPart_ok hp
  obtain ⟨i0, hi0⟩ := List.mem_iff_getElem?.1 hsel
  obtain ⟨rfl, rfl⟩ := parts_index_unique hP.ids hi0 hs.part
  exact ⟨i0, required, hs, hs.valid hP.ids hP.sorted⟩

theorem sameElem_range (hP : Partitioned m parts) (hp : getMeshPart m parts p = .ok pm) (hsel : (p, selp) ∈ parts)
    {g i' i : Nat} (h : SameElem m pm selp g i' i) : ∃ grp grp', m.groups[g]? = some grp ∧ pm.groups[g]? = some grp' ∧
      i < grp.nelements ∧ i' < grp'.nelements ∧ grp'.nfaces = grp.nfaces := by
  obtain ⟨pidx, required, hs, hv⟩ := hP.spec hp hsel
  obtain ⟨k, e, hk, ⟨n', h1, h2, _⟩, ⟨n, h3, h4, _⟩⟩ := h
  rw [sizes_getElem?, Option.map_eq_some_iff] at h1 h3
  obtain ⟨grp', h1, rfl⟩ := h1
  obtain ⟨grp, h3, rfl⟩ := h3
  obtain ⟨grp2, h5, _, h6, _⟩ := (hs.filterSpec hv).group g grp h3
  rw [h1] at h5
  obtain rfl := Option.some.inj h5
  exact ⟨grp, grp', h3, h1, h4, h2, by simp [ElGroup.nfaces, h6]⟩

theorem part_interior_mem {pidx : Nat} {required : List Nat} (hs : PartSpec m parts p pm pidx selp required)
    {i a j : Nat} {l' : List (Fag A)} {rows : List AdjRow} {aff : A} (hl : pm.fags[i]? = some l')
    (h : Fag.interior a j rows aff ∈ l') : ∃ l, m.fags[i]? = some l ∧ Fag.interior a j rows aff ∈
      selfToSelf m (globalElemToPart (nelements m.sizes) parts) pidx (selfGroupBase pm.sizes) i l := by
  rw [part_fags_getElem? hs] at hl
  obtain ⟨l, hl0, rfl⟩ := Option.map_eq_some_iff.1 hl
  rw [mem_completeGroup_interior, List.mem_append, List.mem_append] at h
  refine ⟨l, hl0, ?_⟩
  rcases h with (h | h) | h
  · exact h
  · exact absurd h not_interior_selfToOther
  · simp [partBoundaryGroups] at h

theorem part_interPart_mem {pidx : Nat} {required : List Nat} (hs : PartSpec m parts p pm pidx selp required)
    {i a : Nat} {t : BTag} {part : Nat} {l' : List (Fag A)} {rows : List AdjRow} {aff : A} (hl : pm.fags[i]? = some l')
    (h : Fag.interPart a t part rows aff ∈ l') : a = i ∧ t = .partition part ∧ rows ≠ [] := by
  rw [part_fags_getElem? hs] at hl
  obtain ⟨l, hl, rfl⟩ := Option.map_eq_some_iff.1 hl
  rcases mem_completeGroup.1 h with h | ⟨_, h⟩ | ⟨_, h⟩ | ⟨_, h⟩
  · rw [List.mem_append, List.mem_append] at h
    rcases h with (h | h) | h
    · exact absurd (not_interPart_selfToSelf h) (by simp [Fag.bdry?])
    · obtain ⟨a', j, rows0, aff', q', _, _, h1, h2⟩ := mem_selfToOther.1 h
      simp only [Fag.interPart.injEq] at h1
      obtain ⟨rfl, rfl, rfl, rfl, rfl⟩ := h1
      exact ⟨rfl, rfl, h2⟩
    · simp [partBoundaryGroups] at h
  all_goals simp at h

theorem across_part_iff (hP : Partitioned m parts) (hp : getMeshPart m parts p = .ok pm) (hsel : (p, selp) ∈ parts)
    {i el f j el' f' : Nat} : Across pm.fags i el f j el' f' ↔ ∃ e₁ e₂, SameElem m pm selp i el e₁ ∧
      SameElem m pm selp j el' e₂ ∧ Across m.fags i e₁ f j e₂ f' := by
  obtain ⟨pidx, required, hs, hv⟩ := hP.spec hp hsel
  have hvia : Across pm.fags i el f j el' f' ↔ ∃ aff, IsNeighborVia pm.fags aff ⟨i, el, f⟩ ⟨j, el', f'⟩ := by
    constructor
    · rintro ⟨fg, hfg, ig, rows, aff, hm, hr⟩
      obtain ⟨l, hl, hm'⟩ := part_interior_mem hs hfg hm
      obtain ⟨rfl, _⟩ := mem_selfToSelf ⟨hm', hr⟩
      exact ⟨aff, fg, rows, hfg, hm, hr⟩
    · rintro ⟨aff, l, rows, hl, hm, hr⟩
      exact ⟨l, hl, i, rows, aff, hm, hr⟩
  rw [hvia]
  constructor
  · rintro ⟨aff, h⟩
    obtain ⟨⟨g1, e1, f1⟩, ⟨g2, e2, f2⟩, ⟨a1, a2, a3⟩, ⟨b1, b2, b3⟩, h⟩ :=
      (C11_part_internal_connectivity hP.adj hP.ids hP.sorted hp hsel aff _ _).1 h
    simp only at a1 a2 a3 b1 b2 b3
    subst a1 a2 b1 b2
    exact ⟨e1, e2, a3, b3, (across_iff_via hP.adj).2 ⟨aff, h⟩⟩
  · rintro ⟨e1, e2, h1, h2, h3⟩
    obtain ⟨aff, h⟩ := (across_iff_via hP.adj).1 h3
    exact ⟨aff, (C11_part_internal_connectivity hP.adj hP.ids hP.sorted hp hsel aff _ _).2
      ⟨⟨i, e1, f⟩, ⟨j, e2, f'⟩, ⟨rfl, rfl, h1⟩, ⟨rfl, rfl, h2⟩, h⟩⟩

theorem acrossParts_part_iff (hP : Partitioned m parts) (hp : getMeshPart m parts p = .ok pm)
    (hselp : (p, selp) ∈ parts) (hq : getMeshPart m parts q = .ok qm) (hselq : (q, selq) ∈ parts)
    {i el f j el' f' : Nat} : AcrossParts pm.fags q qm.sizes i el f j el' f' ↔ p ≠ q ∧ ∃ e₁ e₂,
      SameElem m pm selp i el e₁ ∧ SameElem m qm selq j el' e₂ ∧ Across m.fags i e₁ f j e₂ f' := by
  obtain ⟨pidx, required, hs, hv⟩ := hP.spec hp hselp
  obtain ⟨qidx, required', hs', _⟩ := hP.spec hq hselq
  have hvia : AcrossParts pm.fags q qm.sizes i el f j el' f' ↔ ∃ aff nel, FacesPart pm.fags aff ⟨i, el, f⟩ q nel f' ∧
      IsGlobalNr qm.sizes j el' nel := by
    constructor
    · rintro ⟨fg, ig, t, rows, aff, nel, hfg, hm, hr, hn⟩
      obtain ⟨rfl, rfl, _⟩ := part_interPart_mem hs hfg hm
      exact ⟨aff, nel, ⟨fg, rows, hfg, hm, hr⟩, hn⟩
    · rintro ⟨aff, nel, ⟨fg, rows, hfg, hm, hr⟩, hn⟩
      exact ⟨fg, _, _, rows, aff, nel, hfg, hm, hr, hn⟩
  rw [hvia]
  constructor
  · rintro ⟨aff, nel, h, hn⟩
    obtain ⟨hne, ⟨g1, e1, f1⟩, ⟨g2, e2, f2⟩, selq', e, ⟨a1, a2, a3⟩, hq', hk, hg, hf, h⟩ :=
      (C12_inter_part_exact hP.adj hP.ids hP.sorted hp hselp aff _ q nel f').1 h
    simp only at a1 a2 a3 hg hf
    subst a1 a2 hf
    obtain ⟨k1, hk1⟩ := List.mem_iff_getElem?.1 hselq
    obtain ⟨k2, hk2⟩ := List.mem_iff_getElem?.1 hq'
    obtain ⟨rfl, rfl⟩ := parts_index_unique hP.ids hk1 hk2
    obtain ⟨⟨i2, hi2⟩, _⟩ := (isGlobalNr_part (hs'.selSorted hv).1 (hs'.filterSpec hv) hk el').1 hn
    obtain ⟨rfl, rfl⟩ := (C01_numbering_bijective m.sizes e).2 _ _ _ _ hi2 hg
    exact ⟨Ne.symm hne, e1, i2, a3, ⟨nel, e, hk, hn, hg⟩, (across_iff_via hP.adj).2 ⟨aff, h⟩⟩
  · rintro ⟨hne, e1, e2, h1, ⟨nel, e, hk, hn, hg⟩, h3⟩
    obtain ⟨aff, h⟩ := (across_iff_via hP.adj).1 h3
    exact ⟨aff, nel, (C12_inter_part_exact hP.adj hP.ids hP.sorted hp hselp aff _ q nel f').2
      ⟨Ne.symm hne, ⟨i, e1, f⟩, ⟨j, e2, f'⟩, selq, e, ⟨rfl, rfl, h1⟩, hselq, hk, hg, rfl, h⟩, hn⟩

/-- The key of the rows: which face a row is for, in the part and in the whole mesh. -/
theorem part_row_key (hP : Partitioned m parts)
    {pidx : Nat} {required : List Nat} (hs : PartSpec m parts p pm pidx selp required) {i : Nat} {l : List (Fag A)}
    (hl : m.fags[i]? = some l) {x y : Nat × AdjRow} (hx : x ∈ allRows l) (hy : y ∈ allRows l) {k k' : Nat}
    (h1 : partOf (globalElemToPart (nelements m.sizes) parts) (x.2.el + m.baseOf i) = some (pidx, k))
    (h2 : partOf (globalElemToPart (nelements m.sizes) parts) (y.2.el + m.baseOf i) = some (pidx, k'))
    (hf : x.2.face = y.2.face) (hk : k - selfGroupBase pm.sizes i = k' - selfGroupBase pm.sizes i) :
    (⟨x.2.el, x.2.face⟩ : ElFace) = ⟨y.2.el, y.2.face⟩ := by
  have hv := hs.valid hP.ids hP.sorted
  have hel : ∀ z ∈ allRows l, ∃ grp, m.groups[i]? = some grp ∧ z.2.el < grp.nelements := by
    rintro ⟨j, r⟩ hz
    obtain ⟨a, rows, aff, hm, hr⟩ := mem_allRows.1 hz
    obtain ⟨g, hg, _, he⟩ := ((hP.adj.interior _ _ _ _ _ _ hl hm).2 r hr).1
    exact ⟨g, hg, he⟩
  obtain ⟨grp, hg, hxe⟩ := hel x hx
  obtain ⟨grp', hg', hye⟩ := hel y hy
  rw [hg] at hg'
  obtain rfl := Option.some.inj hg'
  have e1 := (partOf_sameElem hs hv hg hxe).2 ⟨k, h1, rfl⟩
  have e2 := (partOf_sameElem hs hv hg hye).2 ⟨k', h2, rfl⟩
  rw [hk] at e1
  rw [sameElem_fun e1 e2, hf]

theorem flatMap_completeGroup {β : Type} (i : Nat) (l : List (Fag A)) (F : Fag A → List β)
    (h : ∀ t fs, t = BTag.none ∨ t = .all ∨ t = .reallyAll → F (.boundary i t fs) = []) :
    (completeGroup i l).flatMap F = l.flatMap F := by
  unfold completeGroup
  simp only [List.flatMap_append]
  rw [List.append_assoc, List.append_assoc]
  conv_rhs => rw [← List.append_nil (l.flatMap F)]
  congr 1
  split <;> split <;> split <;> simp [h]

/-- C102: a part of a mesh with symmetric interior adjacency has symmetric interior adjacency. -/
theorem C102_interior (hP : Partitioned m parts) (hp : getMeshPart m parts p = .ok pm) :
    InteriorOK pm.groups pm.fags := by
  obtain ⟨selp, hsel, _⟩ := C09_part_elements hP.ids hP.sorted hp
  obtain ⟨pidx, required, hs, hv⟩ := hP.spec hp hsel
  have hf := hs.filterSpec hv
  refine ⟨?_, ?_, ?_, ?_, ?_⟩
  · rw [hf.length, hP.interior.len, hs.fags]
    simp [completeFacial]
  · intro i el f j el' f' h
    obtain ⟨e1, e2, h1, h2, h3⟩ := (across_part_iff hP hp hsel).1 h
    obtain ⟨grp, grp', a1, a2, a3, a4, a5⟩ := sameElem_range hP hp hsel h1
    obtain ⟨grp2, b1, b2, b3⟩ := hP.interior.valid _ _ _ _ _ _ h3
    rw [a1] at b1
    obtain rfl := Option.some.inj b1
    exact ⟨grp', a2, a4, by rw [a5]; exact b3⟩
  · intro fg hfg ig j rows aff hm
    obtain ⟨i, hi⟩ := List.mem_iff_getElem?.1 hfg
    obtain ⟨l, hl, hm'⟩ := part_interior_mem hs hi hm
    rw [hf.length]
    simp only [selfToSelf, List.mem_filterMap] at hm'
    obtain ⟨fg0, h0, h1⟩ := hm'
    cases fg0 with
    | interior a' j' rows0 aff' =>
      simp only at h1
      split at h1
      · simp at h1
      · simp only [Option.some.injEq, Fag.interior.injEq] at h1
        obtain ⟨_, rfl, _, _⟩ := h1
        exact hP.interior.nbr l (List.mem_of_getElem? hl) _ _ _ _ h0
    | boundary => simp at h1
    | interPart => simp at h1
  · intro i el f j el' f' h
    obtain ⟨e1, e2, h1, h2, h3⟩ := (across_part_iff hP hp hsel).1 h
    exact (across_part_iff hP hp hsel).2 ⟨e2, e1, h2, h1, hP.interior.symm _ _ _ _ _ _ h3⟩
  · intro i fg hfg
    rw [part_fags_getElem? hs] at hfg
    obtain ⟨l, hl, rfl⟩ := Option.map_eq_some_iff.1 hfg
    rw [flatMap_completeGroup _ _ _ (by simp [Fag.interiorRows]), List.flatMap_append, List.flatMap_append]
    have hO : ((selfToOther m (globalElemToPart (nelements m.sizes) parts) pidx (selfGroupBase pm.sizes)
        (connectedParts m parts (globalElemToPart (nelements m.sizes) parts) pidx) i l).flatMap fun fag =>
          fag.interiorRows.map fun r => (⟨r.el, r.face⟩ : ElFace)) = [] := by
      rw [List.flatMap_eq_nil_iff]
      intro fag hfag
      obtain ⟨_, _, _, _, _, _, _, rfl, _⟩ := mem_selfToOther.1 hfag
      rfl
    have hB : ((partBoundaryGroups m (globalElemToPart (nelements m.sizes) parts) pidx (selfGroupBase pm.sizes)
        i l).flatMap fun fag => fag.interiorRows.map fun r => (⟨r.el, r.face⟩ : ElFace)) = [] := by
      rw [List.flatMap_eq_nil_iff]
      intro fag hfag
      obtain ⟨b, _, rfl⟩ := List.mem_map.1 hfag
      rfl
    rw [hO, hB, List.append_nil, List.append_nil, ← List.map_flatMap, selfToSelf_rows]
    refine nodup_filterMap_key (key := fun x : Nat × AdjRow => (⟨x.2.el, x.2.face⟩ : ElFace)) ?_ ?_
    · rw [← allRows_faces]
      exact hP.interior.nodup i l hl
    · intro x hx y hy r r' hr hr' heq
      obtain ⟨k, _, h1, _, rfl⟩ := selfRow_eq_some.1 hr
      obtain ⟨k', _, h2, _, rfl⟩ := selfRow_eq_some.1 hr'
      simp only [ElFace.mk.injEq] at heq
      exact part_row_key hP hs hl hx hy h1 h2 heq.2 heq.1

/-- C102: the faces of a part towards another part have the tag of that part, and no others do; each is listed once. -/
theorem C102_side [DecidableEq A] (hP : Partitioned m parts) (hp : getMeshPart m parts p = .ok pm)
    (hq : getMeshPart m parts q = .ok qm) :
    PartSide pm.groups pm.fags (.partition q) q (qm.groups.map ElGroup.nelements) := by
  obtain ⟨selp, hsel, _⟩ := C09_part_elements hP.ids hP.sorted hp
  obtain ⟨selq, hselq, hnq, _⟩ := C09_part_elements hP.ids hP.sorted hq
  obtain ⟨pidx, required, hs, hv⟩ := hP.spec hp hsel
  have hf := hs.filterSpec hv
  have hlen : pm.groups.length = pm.fags.length := (C102_interior hP hp).len
  have htag : ∀ fg ∈ pm.fags, ∀ fag ∈ fg, (∃ fs, fag.bdry? = some (BTag.partition q, fs)) ↔
      ∃ ig t' rows aff, fag = Fag.interPart ig t' q rows aff := by
    intro fg hfg fag hfag
    obtain ⟨i, hi⟩ := List.mem_iff_getElem?.1 hfg
    constructor
    · rintro ⟨fs, hfs⟩
      cases fag with
      | interior => simp [Fag.bdry?] at hfs
      | interPart ig t' part rows aff =>
        obtain ⟨_, rfl, _⟩ := part_interPart_mem hs hi hfag
        simp only [Fag.bdry?, Option.some.injEq, Prod.mk.injEq, BTag.partition.injEq] at hfs
        obtain ⟨rfl, _⟩ := hfs
        exact ⟨_, _, _, _, rfl⟩
      | boundary ig t fs' =>
        exfalso
        simp only [Fag.bdry?, Option.some.injEq, Prod.mk.injEq] at hfs
        obtain ⟨rfl, rfl⟩ := hfs
        rw [part_fags_getElem? hs] at hi
        obtain ⟨l, hl, rfl⟩ := Option.map_eq_some_iff.1 hi
        rcases mem_completeGroup.1 hfag with h | ⟨_, h⟩ | ⟨_, h⟩ | ⟨_, h⟩
        · rw [List.mem_append, List.mem_append] at h
          rcases h with (h | h) | h
          · exact absurd (not_interPart_selfToSelf h) (by simp [Fag.bdry?])
          · obtain ⟨_, _, _, _, _, _, _, h1, _⟩ := mem_selfToOther.1 h
            simp at h1
          · simp only [partBoundaryGroups, List.mem_map, List.mem_filterMap, Fag.boundary.injEq] at h
            obtain ⟨⟨t, fs⟩, ⟨fg0, h1, h2⟩, _, rfl, _⟩ := h
            exact hP.whole l (List.mem_of_getElem? hl) fg0 h1 _ _ h2
        all_goals simp at h
    · rintro ⟨ig, t', rows, aff, rfl⟩
      obtain ⟨_, rfl, _⟩ := part_interPart_mem hs hi hfag
      exact ⟨_, rfl⟩
  have hface : ∀ (i : Nat) fg ig t' rows aff, pm.fags[i]? = some fg → Fag.interPart ig t' q rows aff ∈ fg →
      ∀ r ∈ rows, FacesPart pm.fags aff ⟨i, r.el, r.face⟩ q r.nel r.nface := by
    intro i fg ig t' rows aff hi hm r hr
    obtain ⟨rfl, rfl, _⟩ := part_interPart_mem hs hi hm
    exact ⟨fg, rows, hi, hm, hr⟩
  refine ⟨hlen, htag, ?_, ?_, ?_, ?_⟩
  · intro i fg hi ig t' rows aff hm
    obtain ⟨h1, _, h2⟩ := part_interPart_mem hs hi hm
    exact ⟨h1, h2⟩
  · intro i grp fg hg hi ef hef
    rw [groupFaces_eq_ipags _ _ (htag fg (List.mem_of_getElem? hi)), List.mem_flatMap] at hef
    obtain ⟨⟨ig, rows, aff⟩, h1, h2⟩ := hef
    obtain ⟨t', h1⟩ := mem_ipagsOf.1 h1
    obtain ⟨r, hr, rfl⟩ := List.mem_map.1 h2
    obtain ⟨_, f1, f2, _, _, ⟨a1, a2, a3⟩, _, _, _, _, l, rows0, b1, b2, b3⟩ :=
      (C12_inter_part_exact hP.adj hP.ids hP.sorted hp hsel aff _ q _ _).1 (hface i fg ig t' rows aff hi h1 r hr)
    simp only at a1 a2 a3
    obtain ⟨grp0, grp', c1, c2, c3, c4, c5⟩ := sameElem_range hP hp hsel a3
    rw [← a1] at c1 c2 b1
    rw [hg] at c2
    obtain rfl := Option.some.inj c2
    obtain ⟨g, d1, d2, _⟩ := ((hP.adj.interior _ _ _ _ _ _ b1 b2).2 _ b3).1
    simp only at d1 d2
    rw [c1] at d1
    obtain rfl := Option.some.inj d1
    exact ⟨c4, by rw [c5, a2]; exact d2⟩
  · intro fg hfg ig t' rows aff hm r hr
    obtain ⟨i, hi⟩ := List.mem_iff_getElem?.1 hfg
    obtain ⟨_, f1, f2, selq', e2, _, b1, b2, _⟩ :=
      (C12_inter_part_exact hP.adj hP.ids hP.sorted hp hsel aff _ q _ _).1 (hface i fg ig t' rows aff hi hm r hr)
    obtain ⟨k1, hk1⟩ := List.mem_iff_getElem?.1 hselq
    obtain ⟨k2, hk2⟩ := List.mem_iff_getElem?.1 b1
    obtain ⟨rfl, rfl⟩ := parts_index_unique hP.ids hk1 hk2
    have := (List.getElem?_eq_some_iff.1 b2).1
    have h2 : nelements qm.sizes = (qm.groups.map ElGroup.nelements).sum := rfl
    omega
  · intro i grp fg hg hi
    rw [part_fags_getElem? hs] at hi
    obtain ⟨l, hl, rfl⟩ := Option.map_eq_some_iff.1 hi
    rw [groupFaces_tag, flatMap_completeGroup _ _ _ (by
      rintro t fs (rfl | rfl | rfl) <;> simp [tagFacesOf, Fag.bdry?]), List.flatMap_append, List.flatMap_append]
    have hS : ((selfToSelf m (globalElemToPart (nelements m.sizes) parts) pidx (selfGroupBase pm.sizes)
        i l).flatMap (tagFacesOf q)) = [] := by
      rw [List.flatMap_eq_nil_iff]
      intro fag hfag
      rw [tagFacesOf, not_interPart_selfToSelf hfag]
    have hB : ((partBoundaryGroups m (globalElemToPart (nelements m.sizes) parts) pidx (selfGroupBase pm.sizes)
        i l).flatMap (tagFacesOf q)) = [] := by
      rw [List.flatMap_eq_nil_iff]
      intro fag hfag
      obtain ⟨b, hb, rfl⟩ := List.mem_map.1 hfag
      obtain ⟨fg0, h1, h2⟩ := List.mem_filterMap.1 hb
      simp only [tagFacesOf, Fag.bdry?]
      rw [if_neg]
      intro hbq
      exact hP.whole l (List.mem_of_getElem? hl) fg0 h1 q b.2 (by rw [h2, ← hbq])
    rw [hS, hB, List.nil_append, List.append_nil]
    have hC : ((connectedParts m parts (globalElemToPart (nelements m.sizes) parts) pidx).map Prod.fst).Nodup := by
      unfold connectedParts
      refine List.Nodup.sublist ?_ hP.ids
      refine (List.Sublist.map Prod.fst List.filter_sublist).trans ?_
      rw [List.map_map]
      have : (parts.zipIdx.map (Prod.fst ∘ fun pi : (Nat × List Nat) × Nat => (pi.1.1, pi.2))) =
          parts.map Prod.fst := by
        conv_rhs => rw [← List.zipIdx_map_fst 0 parts]
        rw [List.map_map]
        rfl
      rw [this]
    rcases selfToOther_faces m (globalElemToPart (nelements m.sizes) parts) pidx (selfGroupBase pm.sizes) hC i q l
      with h | ⟨qi, _, h⟩
    · rw [h]; exact List.nodup_nil
    · rw [h]
      refine nodup_filterMap_key (key := fun x : Nat × AdjRow => (⟨x.2.el, x.2.face⟩ : ElFace)) ?_ ?_
      · rw [← allRows_faces]
        exact hP.interior.nodup i l hl
      · intro x hx y hy r r' hr hr' heq
        obtain ⟨k, _, h1, _, rfl⟩ := otherRow_eq_some.1 hr
        obtain ⟨k', _, h2, _, rfl⟩ := otherRow_eq_some.1 hr'
        simp only [ElFace.mk.injEq] at heq
        exact part_row_key hP hs hl hx hy h1 h2 heq.2 heq.1


theorem exchange_across_unique (ok : InteriorOK m.groups m.fags) {i el f j₁ e₁ f₁ j₂ e₂ f₂ : Nat}
    (h₁ : Across m.fags i el f j₁ e₁ f₁) (h₂ : Across m.fags i el f j₂ e₂ f₂) : j₁ = j₂ ∧ e₁ = e₂ ∧ f₁ = f₂ := by
  obtain ⟨fg, a1, ig, rows, aff, a2, a3⟩ := h₁
  obtain ⟨fg', b1, ig', rows', aff', b2, b3⟩ := h₂
  rw [a1] at b1
  obtain rfl := Option.some.inj b1
  have hnd := ok.nodup i fg a1
  rw [allRows_faces] at hnd
  have := (List.nodup_map_iff_inj_on (List.Nodup.of_map _ hnd)).1 hnd (j₁, ⟨el, f, e₁, f₁⟩)
    (mem_allRows.2 ⟨_, _, _, a2, a3⟩) (j₂, ⟨el, f, e₂, f₂⟩) (mem_allRows.2 ⟨_, _, _, b2, b3⟩) rfl
  simpa using this

/-- An element of the whole mesh is in one part. -/
theorem sameElem_part (hP : Partitioned m parts) (hp : getMeshPart m parts p = .ok pm) (hselp : (p, selp) ∈ parts)
    (hselq : (q, selq) ∈ parts) {g i' i'' i : Nat} (h₁ : SameElem m pm selp g i' i)
    (h₂ : SameElem m qm selq g i'' i) : q = p ∧ selq = selp := by
  obtain ⟨_, _, _, hv⟩ := hP.spec hp hselp
  obtain ⟨k, e, hk, _, ⟨_, a1, a2, a3⟩⟩ := h₁
  obtain ⟨k', e', hk', _, ⟨_, b1, b2, b3⟩⟩ := h₂
  obtain rfl : e = e' := by omega
  obtain ⟨x, hx⟩ := List.mem_iff_getElem?.1 hselp
  obtain ⟨y, hy⟩ := List.mem_iff_getElem?.1 hselq
  obtain rfl := hv.disjoint x y _ _ e hx hy (List.mem_of_getElem? hk) (List.mem_of_getElem? hk')
  rw [hx] at hy
  simp only [Option.some.injEq, Prod.mk.injEq] at hy
  exact ⟨hy.1.symm, hy.2.symm⟩

/-- Each element of the whole mesh is in some part. -/
theorem sameElem_exists (hP : Partitioned m parts) {M : Nat → MMesh N P A}
    (hM : ∀ x ∈ parts, getMeshPart m parts x.1 = .ok (M x.1)) (hne : parts ≠ []) {g i : Nat} {grp : ElGroup N}
    (hg : m.groups[g]? = some grp) (hi : i < grp.nelements) :
    ∃ x ∈ parts, ∃ i', SameElem m (M x.1) x.2 g i' i := by
  obtain ⟨x0, hx0⟩ := List.exists_mem_of_ne_nil _ hne
  obtain ⟨_, _, _, hv⟩ := hP.spec (hM x0 hx0) hx0
  have hgl : IsGlobalNr m.sizes g i ((m.sizes.take g).sum + i) :=
    ⟨grp.nelements, by rw [sizes_getElem?, hg]; rfl, hi, rfl⟩
  obtain ⟨x, hx, he⟩ := hv.covered _ (((C01_numbering_bijective m.sizes _).1).2 ⟨g, i, hgl⟩)
  obtain ⟨k, hk⟩ := List.mem_iff_getElem?.1 he
  obtain ⟨sel, hsel, _, _, _, hall⟩ := C09_part_elements hP.ids hP.sorted (hM x hx)
  obtain rfl : sel = x.2 := by
    have := List.inj_on_of_nodup_map hP.ids hsel hx rfl
    rw [← this]
  obtain ⟨g', j, j', _, _, h1, h2, _⟩ := hall k _ hk
  obtain ⟨rfl, rfl⟩ := (C01_numbering_bijective m.sizes _).2 _ _ _ _ h1 hgl
  exact ⟨x, hx, j', k, _, hk, h2, h1⟩

/-- C102: face `f` of an element of part `p` towards part `q` is, seen from part `q`, a face towards part `p`, and
the two sides name each other. -/
theorem C102_symmetric (hP : Partitioned m parts) (hp : getMeshPart m parts p = .ok pm)
    (hq : getMeshPart m parts q = .ok qm) (i el f j el' f' : Nat) :
    AcrossParts pm.fags q (qm.groups.map ElGroup.nelements) i el f j el' f' ↔
      AcrossParts qm.fags p (pm.groups.map ElGroup.nelements) j el' f' i el f := by
  obtain ⟨selp, hselp, _⟩ := C09_part_elements hP.ids hP.sorted hp
  obtain ⟨selq, hselq, _⟩ := C09_part_elements hP.ids hP.sorted hq
  have h1 := acrossParts_part_iff hP hp hselp hq hselq (i := i) (el := el) (f := f) (j := j) (el' := el') (f' := f')
  have h2 := acrossParts_part_iff hP hq hselq hp hselp (i := j) (el := el') (f := f') (j := i) (el' := el) (f' := f)
  refine h1.trans (Iff.trans ?_ h2.symm)
  constructor
  · rintro ⟨hne, e1, e2, a, b, c⟩
    exact ⟨Ne.symm hne, e2, e1, b, a, hP.interior.symm _ _ _ _ _ _ c⟩
  · rintro ⟨hne, e1, e2, a, b, c⟩
    exact ⟨Ne.symm hne, e2, e1, b, a, hP.interior.symm _ _ _ _ _ _ c⟩

theorem part_nfaces (hP : Partitioned m parts) (hp : getMeshPart m parts p = .ok pm)
    (hnf : ∀ g ∈ m.groups, 0 < g.nfaces) : ∀ g ∈ pm.groups, 0 < g.nfaces := by
  obtain ⟨selp, hselp, _, hlen, hgrp, _⟩ := C09_part_elements hP.ids hP.sorted hp
  intro g hg
  obtain ⟨i, hi⟩ := List.mem_iff_getElem?.1 hg
  have hi' : i < m.groups.length := hlen ▸ (List.getElem?_eq_some_iff.1 hi).1
  obtain ⟨grp', h1, _, h2⟩ := hgrp i _ (List.getElem?_eq_getElem hi')
  rw [hi] at h1
  obtain rfl := Option.some.inj h1
  have := hnf _ (List.getElem_mem hi')
  simpa [ElGroup.nfaces, h2] using this

section moves
variable {un un' un'' : Nat → Nat → U} {res res' res'' : Nat → Nat → N → M} {nv nv' nv'' : Nat}
  {cross cross' : Nat → Nat → A → List (Nat × Nat) → Option (CrossNodes U)}
  {r rp rq : FaceRestr M U} {opp opp' conn : List (List (Batch U))}

/-- C102: the opposite-face connection of a part does what that of the whole mesh does: it sets boundary element `t'`
from boundary element `s'` of group `j` if and only if these are elements `t` and `s` of the boundary of the whole mesh
for which the connection of the whole mesh does so. -/
theorem C102_inside (hP : Partitioned m parts) (hp : getMeshPart m parts p = .ok pm) (hselp : (p, selp) ∈ parts)
    (hnf : ∀ g ∈ m.groups, 0 < g.nfaces)
    (hr : makeFaceRestriction false un res .interior nv m.groups m.fags = some r)
    (hopp : makeOpposite cross (m.groups.map ElGroup.nfaces) m.fags r.batches = some opp)
    (hrp : makeFaceRestriction false un' res' .interior nv' pm.groups pm.fags = some rp)
    (hopp' : makeOpposite cross' (pm.groups.map ElGroup.nfaces) pm.fags rp.batches = some opp')
    {i : Nat} {bs bs' : List (Batch U)} (hi : opp[i]? = some bs) (hi' : opp'[i]? = some bs') (t' j s' : Nat) :
    (t', j, s') ∈ bs'.flatMap Batch.moves ↔ ∃ t s, (t, j, s) ∈ bs.flatMap Batch.moves ∧
      SameBdry m pm selp (interiorOrigins pm.groups pm.fags i) (interiorOrigins m.groups m.fags i) i t' t ∧
      SameBdry m pm selp (interiorOrigins pm.groups pm.fags j) (interiorOrigins m.groups m.fags j) j s' s := by
  have ok' := C102_interior hP hp
  rw [((C29_moves hrp (part_nfaces hP hp hnf) ok' hopp').2 i bs' hi').2]
  have hall := ((C29_moves hr hnf hP.interior hopp).2 i bs hi).2
  constructor
  · rintro ⟨el, f, el', f', h1, h2, h3⟩
    obtain ⟨e1, e2, a1, a2, a3⟩ := (across_part_iff hP hp hselp).1 h1
    obtain ⟨t, ht⟩ := List.mem_iff_getElem?.1 (((interiorOrigins_props hP.interior i).2 _ _).1 ⟨_, _, _, a3⟩)
    obtain ⟨s, hs⟩ := List.mem_iff_getElem?.1
      (((interiorOrigins_props hP.interior j).2 _ _).1 ⟨_, _, _, hP.interior.symm _ _ _ _ _ _ a3⟩)
    exact ⟨t, s, (hall t j s).2 ⟨e1, f, e2, f', a3, ht, hs⟩, ⟨el, e1, f, h2, ht, a1⟩, ⟨el', e2, f', h3, hs, a2⟩⟩
  · rintro ⟨t, s, h1, ⟨el, e1, f, a1, a2, a3⟩, ⟨el', e2, f', b1, b2, b3⟩⟩
    obtain ⟨e1', g, e2', g', c1, c2, c3⟩ := (hall t j s).1 h1
    rw [a2] at c2
    rw [b2] at c3
    simp only [Option.some.injEq, ElFace.mk.injEq] at c2 c3
    obtain ⟨rfl, rfl⟩ := c2
    obtain ⟨rfl, rfl⟩ := c3
    exact ⟨el, f, el', f', (across_part_iff hP hp hselp).2 ⟨_, _, a3, b3, c1⟩, a1, b1⟩

section two
variable [DecidableEq A]

/-- C102: the connection of part `p` to part `q` does what the opposite-face connection of the whole mesh does for the
faces between these parts. -/
theorem C102_between (hP : Partitioned m parts) (hp : getMeshPart m parts p = .ok pm) (hselp : (p, selp) ∈ parts)
    (hq : getMeshPart m parts q = .ok qm) (hselq : (q, selq) ∈ parts) (hpq : p ≠ q)
    (hnf : ∀ g ∈ m.groups, 0 < g.nfaces)
    (hr : makeFaceRestriction false un res .interior nv m.groups m.fags = some r)
    (hopp : makeOpposite cross (m.groups.map ElGroup.nfaces) m.fags r.batches = some opp)
    (hrp : makeFaceRestriction false un' res' (.tag (.partition q)) nv' pm.groups pm.fags = some rp)
    (hrq : makeFaceRestriction false un'' res'' (.tag (.partition p)) nv'' qm.groups qm.fags = some rq)
    (hconn : makePartConn cross' (pm.groups.map ElGroup.nelements) rp.batches
      (makeRemoteInfos p qm.fags rq.batches) = some conn)
    {i : Nat} {bs bs' : List (Batch U)} (hi : opp[i]? = some bs) (hi' : conn[i]? = some bs') (t' j s' : Nat) :
    (t', j, s') ∈ bs'.flatMap Batch.moves ↔ ∃ t s, (t, j, s) ∈ bs.flatMap Batch.moves ∧
      SameBdry m pm selp (tagOrigins (.partition q) pm.groups pm.fags i) (interiorOrigins m.groups m.fags i) i t' t ∧
      SameBdry m qm selq (tagOrigins (.partition p) qm.groups qm.fags j) (interiorOrigins m.groups m.fags j) j s' s := by
  rw [((C54_moves hrp hrq (part_nfaces hP hp hnf) (part_nfaces hP hq hnf) (C102_side hP hp hq) (C102_side hP hq hp)
    (C102_symmetric hP hp hq) hconn).2 i bs' hi').2]
  have hall := ((C29_moves hr hnf hP.interior hopp).2 i bs hi).2
  constructor
  · rintro ⟨el, f, el', f', h1, h2, h3⟩
    obtain ⟨_, e1, e2, a1, a2, a3⟩ := (acrossParts_part_iff hP hp hselp hq hselq).1 h1
    obtain ⟨t, ht⟩ := List.mem_iff_getElem?.1 (((interiorOrigins_props hP.interior i).2 _ _).1 ⟨_, _, _, a3⟩)
    obtain ⟨s, hs⟩ := List.mem_iff_getElem?.1
      (((interiorOrigins_props hP.interior j).2 _ _).1 ⟨_, _, _, hP.interior.symm _ _ _ _ _ _ a3⟩)
    exact ⟨t, s, (hall t j s).2 ⟨e1, f, e2, f', a3, ht, hs⟩, ⟨el, e1, f, h2, ht, a1⟩, ⟨el', e2, f', h3, hs, a2⟩⟩
  · rintro ⟨t, s, h1, ⟨el, e1, f, a1, a2, a3⟩, ⟨el', e2, f', b1, b2, b3⟩⟩
    obtain ⟨e1', g, e2', g', c1, c2, c3⟩ := (hall t j s).1 h1
    rw [a2] at c2
    rw [b2] at c3
    simp only [Option.some.injEq, ElFace.mk.injEq] at c2 c3
    obtain ⟨rfl, rfl⟩ := c2
    obtain ⟨rfl, rfl⟩ := c3
    exact ⟨el, f, el', f', (acrossParts_part_iff hP hp hselp hq hselq).2 ⟨hpq, _, _, a3, b3, c1⟩, a1, b1⟩


/-- C102: if matching of face nodes succeeds, parts `p` and `q` make their connections. -/
theorem C102_made (hP : Partitioned m parts) (hp : getMeshPart m parts p = .ok pm)
    (hq : getMeshPart m parts q = .ok qm) (hnf : ∀ g ∈ m.groups, 0 < g.nfaces) :
    (∀ rp, makeFaceRestriction false un' res' .interior nv' pm.groups pm.fags = some rp →
      (∀ i j aff pairs, pairs ≠ [] → (∀ x ∈ pairs, AdjPair pm.groups pm.fags i j aff x) →
        ∃ cn, cross j i aff pairs = some cn ∧ ∀ e < pairs.length, cn.close e e = true) →
      ∃ opp, makeOpposite cross (pm.groups.map ElGroup.nfaces) pm.fags rp.batches = some opp ∧
        opp.length = m.groups.length) ∧
    ∀ rp rq, makeFaceRestriction false un' res' (.tag (.partition q)) nv' pm.groups pm.fags = some rp →
      makeFaceRestriction false un'' res'' (.tag (.partition p)) nv'' qm.groups qm.fags = some rq →
      (∀ i j aff pairs, pairs ≠ [] → (∀ x ∈ pairs, AdjPartPair (.partition p) (.partition q) pm.groups qm.groups
          pm.fags qm.fags p i j aff x) →
        ∃ cn, cross j i aff pairs = some cn ∧ ∀ e < pairs.length, cn.close e e = true) →
      ∃ conn, makePartConn cross (pm.groups.map ElGroup.nelements) rp.batches
        (makeRemoteInfos p qm.fags rq.batches) = some conn ∧ conn.length = m.groups.length := by
  obtain ⟨_, _, _, hlen, _⟩ := C09_part_elements hP.ids hP.sorted hp
  constructor
  · intro rp hrp hcross
    obtain ⟨opp, h1, h2, _⟩ := C29_opposite hrp (part_nfaces hP hp hnf) (C102_interior hP hp) cross hcross
    obtain ⟨hc1, hc2⟩ := C27_group_count hrp (C102_interior hP hp).len (fun _ => part_nfaces hP hp hnf)
    exact ⟨opp, h1, by rw [h2, hc1]; simp [hlen]⟩
  · intro rp rq hrp hrq hcross
    obtain ⟨conn, h1, h2, _⟩ := C54_partition_connection hrp hrq (part_nfaces hP hp hnf) (part_nfaces hP hq hnf)
      (C102_side hP hp hq) (C102_side hP hq hp) (C102_symmetric hP hp hq) cross hcross
    obtain ⟨hc1, hc2⟩ := C27_group_count hrp (C102_interior hP hp).len (fun _ => part_nfaces hP hp hnf)
    exact ⟨conn, h1, by rw [h2, hc1]; simp [hlen]⟩

theorem movedValue_eq {X : Type} {bs : List (Batch U)} (hnd : (bs.flatMap Batch.toEls).Nodup) {t j s : Nat}
    (h : (t, j, s) ∈ bs.flatMap Batch.moves) (u : Nat → Nat → X) : movedValue bs u t = some (u j s) := by
  have hk : ((bs.flatMap Batch.moves).map Prod.fst).Nodup := by
    refine List.Sublist.nodup ?_ hnd
    rw [List.map_flatMap]
    clear h hnd
    induction bs with
    | nil => simp
    | cons b bs ih =>
      rw [List.flatMap_cons, List.flatMap_cons]
      refine List.Sublist.append ?_ ih
      simp only [Batch.moves, List.map_map]
      have : (Prod.fst ∘ fun p : Nat × Nat => (p.1, b.fromGroup, p.2)) = Prod.fst := rfl
      rw [this]
      exact map_fst_zip_sublist _ _
  unfold movedValue
  generalize bs.flatMap Batch.moves = l at h hk
  induction l with
  | nil => cases h
  | cons a l ih =>
    rw [List.map_cons, List.nodup_cons] at hk
    rw [List.lookup_cons]
    rcases List.mem_cons.1 h with rfl | h
    · simp
    · have : (t == a.1) = false := by
        rw [beq_eq_false_iff_ne]
        rintro rfl
        exact hk.1 (List.mem_map.2 ⟨_, h, rfl⟩)
      rw [this]
      exact ih h hk.2

omit [DecidableEq A] in
/-- C102: boundary data of a part that agree with data of the whole mesh still agree after each has been sent through
its opposite-face connection. -/
theorem C102_values_inside {X : Type} (hP : Partitioned m parts) (hp : getMeshPart m parts p = .ok pm)
    (hselp : (p, selp) ∈ parts) (hnf : ∀ g ∈ m.groups, 0 < g.nfaces)
    (hr : makeFaceRestriction false un res .interior nv m.groups m.fags = some r)
    (hopp : makeOpposite cross (m.groups.map ElGroup.nfaces) m.fags r.batches = some opp)
    (hrp : makeFaceRestriction false un' res' .interior nv' pm.groups pm.fags = some rp)
    (hopp' : makeOpposite cross' (pm.groups.map ElGroup.nfaces) pm.fags rp.batches = some opp')
    {u u' : Nat → Nat → X}
    (hu : ∀ j s' s, SameBdry m pm selp (interiorOrigins pm.groups pm.fags j) (interiorOrigins m.groups m.fags j) j s' s →
      u' j s' = u j s)
    {i : Nat} {bs bs' : List (Batch U)} (hi : opp[i]? = some bs) (hi' : opp'[i]? = some bs') {t' t : Nat}
    (ht : SameBdry m pm selp (interiorOrigins pm.groups pm.fags i) (interiorOrigins m.groups m.fags i) i t' t) :
    ∃ x, movedValue bs' u' t' = some x ∧ movedValue bs u t = some x := by
  have ok' := C102_interior hP hp
  obtain ⟨⟨els', _, hp'⟩, hall'⟩ := (C29_moves hrp (part_nfaces hP hp hnf) ok' hopp').2 i bs' hi'
  obtain ⟨⟨els, _, hp0⟩, _⟩ := (C29_moves hr hnf hP.interior hopp).2 i bs hi
  obtain ⟨el, e, f, h1, h2, h3⟩ := ht
  obtain ⟨j, el2, f2, hac⟩ := ((interiorOrigins_props ok' i).2 el f).2 (List.mem_of_getElem? h1)
  obtain ⟨s', hs'⟩ := List.mem_iff_getElem?.1
    (((interiorOrigins_props ok' j).2 _ _).1 ⟨_, _, _, ok'.symm _ _ _ _ _ _ hac⟩)
  have hm' := (hall' t' j s').2 ⟨el, f, el2, f2, hac, h1, hs'⟩
  obtain ⟨t2, s, hm, ⟨_, _, _, a1, a2, a3⟩, hss⟩ :=
    (C102_inside hP hp hselp hnf hr hopp hrp hopp' hi hi' t' j s').1 hm'
  obtain rfl : t2 = t := by
    rw [h1] at a1
    simp only [Option.some.injEq, ElFace.mk.injEq] at a1
    obtain ⟨rfl, rfl⟩ := a1
    obtain rfl := sameElem_fun h3 a3
    exact (List.getElem?_inj (List.getElem?_eq_some_iff.1 a2).1 (interiorOrigins_props hP.interior i).1).1
      (a2.trans h2.symm)
  exact ⟨u j s, by rw [movedValue_eq (hp'.nodup_iff.2 List.nodup_range) hm', hu j s' s hss],
    movedValue_eq (hp0.nodup_iff.2 List.nodup_range) hm u⟩

/-- C102: if boundary data of part `q` agree with data of the whole mesh, the data that part `p` obtains through its
connection to part `q` agree with those of the whole mesh sent through the opposite-face connection. -/
theorem C102_values_between {X : Type} (hP : Partitioned m parts) (hp : getMeshPart m parts p = .ok pm)
    (hselp : (p, selp) ∈ parts) (hq : getMeshPart m parts q = .ok qm) (hselq : (q, selq) ∈ parts) (hpq : p ≠ q)
    (hnf : ∀ g ∈ m.groups, 0 < g.nfaces)
    (hr : makeFaceRestriction false un res .interior nv m.groups m.fags = some r)
    (hopp : makeOpposite cross (m.groups.map ElGroup.nfaces) m.fags r.batches = some opp)
    (hrp : makeFaceRestriction false un' res' (.tag (.partition q)) nv' pm.groups pm.fags = some rp)
    (hrq : makeFaceRestriction false un'' res'' (.tag (.partition p)) nv'' qm.groups qm.fags = some rq)
    (hconn : makePartConn cross' (pm.groups.map ElGroup.nelements) rp.batches
      (makeRemoteInfos p qm.fags rq.batches) = some conn)
    {u u' : Nat → Nat → X}
    (hu : ∀ j s' s, SameBdry m qm selq (tagOrigins (.partition p) qm.groups qm.fags j)
      (interiorOrigins m.groups m.fags j) j s' s → u' j s' = u j s)
    {i : Nat} {bs bs' : List (Batch U)} (hi : opp[i]? = some bs) (hi' : conn[i]? = some bs') {t' t : Nat}
    (ht : SameBdry m pm selp (tagOrigins (.partition q) pm.groups pm.fags i) (interiorOrigins m.groups m.fags i) i t' t) :
    ∃ x, movedValue bs' u' t' = some x ∧ movedValue bs u t = some x := by
  have side := C102_side hP hp hq
  have side' := C102_side hP hq hp
  have hsym := C102_symmetric hP hp hq
  obtain ⟨⟨els', _, hp'⟩, hall'⟩ := (C54_moves hrp hrq (part_nfaces hP hp hnf) (part_nfaces hP hq hnf) side side' hsym
    hconn).2 i bs' hi'
  obtain ⟨⟨els, _, hp0⟩, _⟩ := (C29_moves hr hnf hP.interior hopp).2 i bs hi
  obtain ⟨el, e, f, h1, h2, h3⟩ := ht
  obtain ⟨j, el2, f2, hac⟩ := ((tagOrigins_props side i).2 el f).1 (List.mem_of_getElem? h1)
  obtain ⟨s', hs'⟩ := List.mem_iff_getElem?.1
    (((tagOrigins_props side' j).2 _ _).2 ⟨_, _, _, (hsym _ _ _ _ _ _).1 hac⟩)
  have hm' := (hall' t' j s').2 ⟨el, f, el2, f2, hac, h1, hs'⟩
  obtain ⟨t2, s, hm, ⟨_, _, _, a1, a2, a3⟩, hss⟩ :=
    (C102_between hP hp hselp hq hselq hpq hnf hr hopp hrp hrq hconn hi hi' t' j s').1 hm'
  obtain rfl : t2 = t := by
    rw [h1] at a1
    simp only [Option.some.injEq, ElFace.mk.injEq] at a1
    obtain ⟨rfl, rfl⟩ := a1
    obtain rfl := sameElem_fun h3 a3
    exact (List.getElem?_inj (List.getElem?_eq_some_iff.1 a2).1 (interiorOrigins_props hP.interior i).1).1
      (a2.trans h2.symm)
  exact ⟨u j s, by rw [movedValue_eq (hp'.nodup_iff.2 List.nodup_range) hm', hu j s' s hss],
    movedValue_eq (hp0.nodup_iff.2 List.nodup_range) hm u⟩

end two
end moves

/-- C102: each boundary element of the whole mesh (each side of a face between two elements) is a boundary element of
exactly one part, in exactly one of its boundaries: the interior one or the one with exactly one other part. -/
theorem C102_cover [DecidableEq A] (hP : Partitioned m parts) {M : Nat → MMesh N P A}
    (hM : ∀ x ∈ parts, getMeshPart m parts x.1 = .ok (M x.1)) (hne : parts ≠ []) {i t : Nat}
    (ht : t < (interiorOrigins m.groups m.fags i).length) :
    ∃ x ∈ parts, ∃ o ∈ exchangeSides parts, ∃ t', SameBdry m (M x.1) x.2 (sideOrigins (M x.1) o i)
        (interiorOrigins m.groups m.fags i) i t' t ∧
      ∀ y ∈ parts, ∀ o' ∈ exchangeSides parts, ∀ t'', SameBdry m (M y.1) y.2 (sideOrigins (M y.1) o' i)
        (interiorOrigins m.groups m.fags i) i t'' t → y = x ∧ o' = o ∧ t'' = t' := by
  obtain ⟨⟨e, f⟩, hO⟩ : ∃ x, (interiorOrigins m.groups m.fags i)[t]? = some x := ⟨_, List.getElem?_eq_getElem ht⟩
  obtain ⟨j, e2, f2, hac⟩ := ((interiorOrigins_props hP.interior i).2 e f).2 (List.mem_of_getElem? hO)
  obtain ⟨grp, hg, he, _⟩ := hP.interior.valid _ _ _ _ _ _ hac
  obtain ⟨grp2, hg2, he2, _⟩ := hP.interior.valid _ _ _ _ _ _ (hP.interior.symm _ _ _ _ _ _ hac)
  obtain ⟨x, hx, el, hel⟩ := sameElem_exists hP hM hne hg he
  obtain ⟨z, hz, el2, hel2⟩ := sameElem_exists hP hM hne hg2 he2
  -- which boundary a face of the part is in
  have hside : ∀ o ∈ exchangeSides parts, (⟨el, f⟩ ∈ sideOrigins (M x.1) o i ↔
      o = if z.1 = x.1 then none else some z.1) := by
    intro o ho
    cases o with
    | none =>
      simp only [sideOrigins]
      rw [← (interiorOrigins_props (C102_interior hP (hM x hx)) i).2]
      constructor
      · rintro ⟨j', a, b, h⟩
        obtain ⟨e1, e3, h1, h3, h4⟩ := (across_part_iff hP (hM x hx) hx).1 h
        obtain rfl := sameElem_fun h1 hel
        obtain ⟨rfl, rfl, rfl⟩ := exchange_across_unique hP.interior h4 hac
        rw [if_pos (sameElem_part hP (hM x hx) hx hz h3 hel2).1]
      · intro h
        by_cases hzx : z.1 = x.1
        · obtain rfl := List.inj_on_of_nodup_map hP.ids hz hx hzx
          exact ⟨j, el2, f2, (across_part_iff hP (hM _ hx) hx).2 ⟨e, e2, hel, hel2, hac⟩⟩
        · rw [if_neg hzx] at h
          cases h
    | some q =>
      obtain ⟨y, hy, rfl⟩ : ∃ y ∈ parts, y.1 = q := by
        simpa [exchangeSides] using ho
      simp only [sideOrigins]
      rw [(tagOrigins_props (C102_side hP (hM x hx) (hM y hy)) i).2]
      have key := fun j' a b => acrossParts_part_iff hP (hM x hx) hx (hM y hy) hy (i := i) (el := el) (f := f)
        (j := j') (el' := a) (f' := b)
      constructor
      · rintro ⟨j', a, b, h⟩
        obtain ⟨hxy, e1, e3, h1, h3, h4⟩ := (key j' a b).1 h
        obtain rfl := sameElem_fun h1 hel
        obtain ⟨rfl, rfl, rfl⟩ := exchange_across_unique hP.interior h4 hac
        have hzy := (sameElem_part hP (hM y hy) hy hz h3 hel2).1
        rw [if_neg (by rw [hzy]; exact Ne.symm hxy), hzy]
      · intro h
        by_cases hzx : z.1 = x.1
        · rw [if_pos hzx] at h
          cases h
        · rw [if_neg hzx] at h
          obtain rfl := List.inj_on_of_nodup_map hP.ids hy hz (Option.some.inj h)
          exact ⟨j, el2, f2, (key j el2 f2).2 ⟨Ne.symm hzx, e, e2, hel, hel2, hac⟩⟩
  have hmem : (if z.1 = x.1 then none else some z.1) ∈ exchangeSides parts := by
    unfold exchangeSides
    split
    · exact List.mem_cons_self
    · exact List.mem_cons_of_mem _ (List.mem_map.2 ⟨z, hz, rfl⟩)
  have hnodup : ∀ o ∈ exchangeSides parts, (sideOrigins (M x.1) o i).Nodup := by
    intro o ho
    cases o with
    | none => exact (interiorOrigins_props (C102_interior hP (hM x hx)) i).1
    | some q =>
      obtain ⟨y, hy, rfl⟩ : ∃ y ∈ parts, y.1 = q := by
        simpa [exchangeSides] using ho
      exact (tagOrigins_props (C102_side hP (hM x hx) (hM y hy)) i).1
  obtain ⟨t', ht'⟩ := List.mem_iff_getElem?.1 ((hside _ hmem).2 rfl)
  refine ⟨x, hx, _, hmem, t', ⟨el, e, f, ht', hO, hel⟩, ?_⟩
  rintro y hy o' ho' t'' ⟨el', e', f', h1, h2, h3⟩
  rw [hO] at h2
  simp only [Option.some.injEq, ElFace.mk.injEq] at h2
  obtain ⟨rfl, rfl⟩ := h2
  obtain rfl : y = x := by
    obtain ⟨h4, h5⟩ := sameElem_part hP (hM x hx) hx hy hel h3
    exact Prod.ext h4 h5
  obtain ⟨_, _, hs, hv⟩ := hP.spec (hM _ hy) hy
  obtain rfl := sameElem_inj (nodup_of_pairwise_lt (hs.selSorted hv).1) h3 hel
  obtain rfl := (hside o' ho').1 (List.mem_of_getElem? h1)
  exact ⟨rfl, rfl, (List.getElem?_inj (List.getElem?_eq_some_iff.1 h1).1 (hnodup _ ho')).1 (h1.trans ht'.symm)⟩

end

/-! ## Example -/

/-- Elements 0 and 1 of the three segments make part 7, element 2 (of the second group) makes part 8.
(Example, no code.) -/
def exExchangeParts : Parts := [(7, [0, 1]), (8, [2])]

/-- The parts. (Example, no code.) -/
def exExchangePart (p : Nat) : MMesh Nat Nat Unit :=
  match getMeshPart exPartMesh exExchangeParts p with
  | .ok pm => pm
  | .error _ => ⟨[], [], []⟩

theorem exExchange_made : ∀ x ∈ exExchangeParts, getMeshPart exPartMesh exExchangeParts x.1 = .ok (exExchangePart x.1) := by
  intro x hx
  simp only [exExchangeParts, List.mem_cons, List.not_mem_nil, or_false] at hx
  rcases hx with rfl | rfl <;> decide +kernel

/-- Non-vacuity of C102: its hypotheses hold for three segments in two groups and two parts. -/
theorem exExchange_partitioned : Partitioned exPartMesh exExchangeParts := by
  have hf : exPartMesh.fags = computeFacial () exPartMesh.groups [([0], [.user 7 false])] [.user 7 false] := by
    decide +kernel
  refine ⟨exPartMesh_adjOK, ?_, by decide, ?_, ?_⟩
  · rw [hf]
    refine C29_computed_adjacency exPartMesh_ok.1 ?_ () _ _ (by decide)
    have key : ∀ f ∈ allFaceIds exPartMesh.groups, ∀ f' ∈ allFaceIds exPartMesh.groups,
        ∀ f'' ∈ allFaceIds exPartMesh.groups,
        ((faceVerts exPartMesh.groups f).getD []).isPerm ((faceVerts exPartMesh.groups f').getD []) = true →
        ((faceVerts exPartMesh.groups f).getD []).isPerm ((faceVerts exPartMesh.groups f'').getD []) = true →
        f ≠ f' → f ≠ f'' → f' = f'' := by decide +kernel
    intro f f' f'' h h' h'' ⟨a, b, ha, hb, hab⟩ ⟨c, d, hc, hd, hcd⟩ n1 n2
    apply key f (mem_allFaceIds.2 h) f' (mem_allFaceIds.2 h') f'' (mem_allFaceIds.2 h'') _ _ n1 n2
    · simpa [ha, hb, List.isPerm_iff] using hab
    · simpa [hc, hd, List.isPerm_iff] using hcd
  · intro p hp
    simp only [exExchangeParts, List.mem_cons, List.not_mem_nil, or_false] at hp
    rcases hp with rfl | rfl <;> decide
  · have key : (exPartMesh.fags.all fun l => l.all fun fg => match fg.bdry? with
        | some (.partition _, _) => false
        | _ => true) = true := by decide +kernel
    intro l hl fg hfg q fs h
    simp only [List.all_eq_true] at key
    have := key l hl fg hfg
    simp [h] at this

/-- The opposite-face connection of a mesh. (Example, no code.) -/
def exInsideMoves (m : MMesh Nat Nat Unit) : Option (List (List (Nat × Nat × Nat))) := do
  let r ← makeFaceRestriction false (fun _ _ => 0) (fun _ f n => (f, n)) .interior 4 m.groups m.fags
  let o ← makeOpposite (fun _ _ _ _ => some ⟨fun a b => a == b, id⟩) (m.groups.map ElGroup.nfaces) m.fags r.batches
  some (o.map fun bs => bs.flatMap Batch.moves)

/-- The connection of part `p` to part `q`. (Example, no code.) -/
def exBetweenMoves (p q : Nat) : Option (List (List (Nat × Nat × Nat))) := do
  let pm := exExchangePart p
  let qm := exExchangePart q
  let rp ← makeFaceRestriction false (fun _ _ => 0) (fun _ f n => (f, n)) (.tag (.partition q)) 4 pm.groups pm.fags
  let rq ← makeFaceRestriction false (fun _ _ => 0) (fun _ f n => (f, n)) (.tag (.partition p)) 4 qm.groups qm.fags
  let c ← makePartConn (fun _ _ _ _ => some ⟨fun a b => a == b, id⟩) (pm.groups.map ElGroup.nelements) rp.batches
    (makeRemoteInfos p qm.fags rq.batches)
  some (c.map fun bs => bs.flatMap Batch.moves)

/-- The whole mesh sets (face 1 of element 1) of group 0, boundary element 2, from boundary element 0 of group 1; part 7
has that face as element 0 of its boundary with part 8.  The two other moves of the whole mesh are inside part 7. -/
example : exInsideMoves exPartMesh = some [[(0, 0, 1), (1, 0, 0), (2, 1, 0)], [(0, 0, 2)]] ∧
    exInsideMoves (exExchangePart 7) = some [[(0, 0, 1), (1, 0, 0)], []] ∧
    exInsideMoves (exExchangePart 8) = some [[], []] ∧
    exBetweenMoves 7 8 = some [[(0, 1, 0)], []] ∧ exBetweenMoves 8 7 = some [[], [(0, 0, 0)]] ∧
    (List.range 2).map (interiorOrigins exPartMesh.groups exPartMesh.fags) = [[⟨1, 0⟩, ⟨0, 1⟩, ⟨1, 1⟩], [⟨0, 0⟩]] ∧
    (List.range 2).map (sideOrigins (exExchangePart 7) none) = [[⟨1, 0⟩, ⟨0, 1⟩], []] ∧
    (List.range 2).map (sideOrigins (exExchangePart 7) (some 8)) = [[⟨1, 1⟩], []] := by
  refine ⟨?_, ?_, ?_, ?_, ?_, ?_, ?_, ?_⟩ <;> decide +kernel

end Meshmode
