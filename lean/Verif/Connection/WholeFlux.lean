import Verif.Connection.PartFlux
import Verif.Connection.PartExchange
import Verif.Partition.TwoSteps
import Verif.Distributed.Exchange
import Mathlib.Algebra.BigOperators.Group.List.Lemmas

/-!
# A distributed computation does what the computation on the whole mesh does (C120)

`partition_mesh` (meshmode/mesh/processing.py), `make_opposite_face_connection` and `make_partition_connection`
(meshmode/discretization/connection/opposite_face.py), `get_connected_parts` (meshmode/distributed.py) and the
evaluation of the connections composed: all that is assumed is on the whole mesh and its connection; the parts get, at
each node of each face, the value that the whole mesh gets, and the sums over the parts are those over the whole mesh.
No code of its own.
-/
namespace Meshmode

open Finset

variable {N M A P : Type} {a d : Nat}

/-! ## Specification -/

/-- `E` is the part with boundary elements `O` of the discretization `D` of the interior faces of the whole mesh: the
groups are the same but for the number of elements, and the nodes of a face are where they are in the whole mesh.
(Specification or proof vocabulary, no code.) -/
structure PartDiscr (m pm : MMesh N P A) (sel : List Nat) (O : Nat → List ElFace) (D E : BdryDiscr a d) : Prop where
  groups : ∀ i : Nat, E.groups[i]? = D.groups[i]?.map fun g => { g with nel := (O i).length }
  pos : ∀ i t' t, SameBdry m pm sel (O i) (interiorOrigins m.groups m.fags i) i t' t → E.pos i t' = D.pos i t

/-- The boundaries of a part with the connected parts `nbs`: the interior one and one for each of them.
(Specification or proof vocabulary, no code.) -/
def partSides (nbs : List Nat) : List (Option Nat) := none :: nbs.map some

/-- A mesh, its opposite-face connection and its parts `Ms` with the connected parts `nbs`, boundary discretizations `E`
and connections `con`. (Specification or proof vocabulary, no code.) -/
structure DistributedRun [DecidableEq A] (lstsq : ∀ d, (Fin d → Fin a → ℝ) → (Fin a → ℝ) → Fin d → ℝ)
    (m : MMesh N P A) (parts : Parts) (tol : ℝ) (move : A → (Fin a → ℝ) → Fin a → ℝ) (D : BdryDiscr a d)
    (r : FaceRestr M (List (Fin d → ℝ))) (opp : List (List (Batch (List (Fin d → ℝ)))))
    (Ms : Nat → MMesh N P A) (nbs : Nat → List Nat) (E : Nat → Option Nat → BdryDiscr a d)
    (rs : Nat → Option Nat → FaceRestr M (List (Fin d → ℝ)))
    (con : Nat → Option Nat → List (List (Batch (List (Fin d → ℝ))))) : Prop where
  partitioned : Partitioned m parts
  nonempty : parts ≠ []
  whole : OppositeRun lstsq m.groups m.fags tol move D r opp
  made : ∀ x ∈ parts, getMeshPart m parts x.1 = .ok (Ms x.1)
  connected : ∀ x ∈ parts, getConnectedParts (some (Ms x.1).fags) = some (nbs x.1)
  discr : ∀ x ∈ parts, ∀ o ∈ partSides (nbs x.1), PartDiscr m (Ms x.1) x.2 (sideOrigins (Ms x.1) o) D (E x.1 o)
  restrI : ∀ x ∈ parts, ∃ (un : Nat → Nat → List (Fin d → ℝ)) (res : Nat → Nat → N → M) (nv : Nat),
    makeFaceRestriction false un res .interior nv (Ms x.1).groups (Ms x.1).fags = some (rs x.1 none)
  restrB : ∀ x ∈ parts, ∀ q ∈ nbs x.1, ∃ (un : Nat → Nat → List (Fin d → ℝ)) (res : Nat → Nat → N → M) (nv : Nat),
    makeFaceRestriction false un res (.tag (.partition q)) nv (Ms x.1).groups (Ms x.1).fags = some (rs x.1 (some q))
  inside : ∀ x ∈ parts, makeOpposite (crossOpposite lstsq tol move (E x.1 none)) ((Ms x.1).groups.map ElGroup.nfaces)
    (Ms x.1).fags (rs x.1 none).batches = some (con x.1 none)
  between : ∀ x ∈ parts, ∀ q ∈ nbs x.1, makePartConn (crossPart lstsq tol move (E x.1 (some q)) (E q (some x.1)))
    ((Ms x.1).groups.map ElGroup.nelements) (rs x.1 (some q)).batches
    (makeRemoteInfos x.1 (Ms q).fags (rs q (some x.1)).batches) = some (con x.1 (some q))

/-- The boundary discretization whose values a part gets on one of its boundaries: its own on the interior faces, that
of the other part on the faces to it. (Specification or proof vocabulary, no code.) -/
def otherSide {X : Type} (E : Nat → Option Nat → X) (p : Nat) : Option Nat → X
  | none => E p none
  | some q => E q (some p)

/-- Data on the nodes of a boundary of a part are those of the whole mesh.
(Specification or proof vocabulary, no code.) -/
def SameData (m pm : MMesh N P A) (sel : List Nat) (O : Nat → List ElFace) (D : BdryDiscr a d)
    (F' F : Nat → Nat → Nat → ℝ) : Prop :=
  ∀ i t' t, SameBdry m pm sel (O i) (interiorOrigins m.groups m.fags i) i t' t →
    ∀ g, D.groups[i]? = some g → ∀ k < g.n, F' i t' k = F i t k

/-! ## Lemmas -/

theorem oneNear_back {n : Nat} {tol : ℝ} {f g : (Fin a → ℝ) → Fin a → ℝ} {x : Fin a → ℝ} {pts : Nat → Fin a → ℝ}
    (h : ∀ x y : Fin a → ℝ, ∑ k, (f x k - y k) ^ 2 = ∑ k, (g y k - x k) ^ 2) {k : Nat} :
    OneNear n tol (f x) pts k ↔ OneNear n tol x (fun l => g (pts l)) k := by
  have h' : ∀ l, ∑ k, (f x k - pts l k) ^ 2 = ∑ k, (x k - g (pts l) k) ^ 2 := by
    intro l
    rw [h]
    exact Finset.sum_congr rfl fun k _ => by ring
  simp only [OneNear, h']

section
variable {m : MMesh N P A} {parts : Parts} {p q : Nat} {pm qm : MMesh N P A} {selp selq : List Nat}

theorem sameBdry_fun (ok : InteriorOK m.groups m.fags) {O : List ElFace} {i t' t₁ t₂ : Nat}
    (h₁ : SameBdry m pm selp O (interiorOrigins m.groups m.fags i) i t' t₁)
    (h₂ : SameBdry m pm selp O (interiorOrigins m.groups m.fags i) i t' t₂) : t₁ = t₂ := by
  obtain ⟨el', el, f, a1, a2, a3⟩ := h₁
  obtain ⟨el'', el2, f', b1, b2, b3⟩ := h₂
  rw [a1] at b1
  simp only [Option.some.injEq, ElFace.mk.injEq] at b1
  obtain ⟨rfl, rfl⟩ := b1
  obtain rfl := sameElem_fun a3 b3
  exact nodup_getElem?_inj (interiorOrigins_props ok i).1 a2 b2

/-- Neighboring faces inside a part are neighbors in the whole mesh, with the same affine map. -/
theorem adjPair_part (hP : Partitioned m parts) (hp : getMeshPart m parts p = .ok pm) (hselp : (p, selp) ∈ parts)
    {i j t' s' : Nat} {aff : A} (h : AdjPair pm.groups pm.fags i j aff (t', s')) :
    ∃ t s, AdjPair m.groups m.fags i j aff (t, s) ∧
      SameBdry m pm selp (interiorOrigins pm.groups pm.fags i) (interiorOrigins m.groups m.fags i) i t' t ∧
      SameBdry m pm selp (interiorOrigins pm.groups pm.fags j) (interiorOrigins m.groups m.fags j) j s' s := by
  obtain ⟨fg, ig, rows, ⟨el, f, el', f'⟩, h1, h2, h3, h4, h5⟩ := h
  obtain ⟨pidx, required, hs, hv⟩ := hP.spec hp hselp
  obtain ⟨l, hl, hm'⟩ := part_interior_mem hs h1 h2
  obtain ⟨rfl, _⟩ := mem_selfToSelf ⟨hm', h3⟩
  have hvia : IsNeighborVia pm.fags aff ⟨ig, el, f⟩ ⟨j, el', f'⟩ := ⟨fg, rows, h1, h2, h3⟩
  obtain ⟨⟨g1, e1, f1⟩, ⟨g2, e2, f2⟩, ⟨a1, a2, a3⟩, ⟨b1, b2, b3⟩, l', rows', c1, c2, c3⟩ :=
    (C11_part_internal_connectivity hP.adj hP.ids hP.sorted hp hselp aff _ _).1 hvia
  simp only at a1 a2 a3 b1 b2 b3 c1 c2 c3 h4 h5
  subst a1 a2 b1 b2
  have hac : Across m.fags ig e1 f j e2 f' := ⟨l', c1, ig, rows', aff, c2, c3⟩
  obtain ⟨t, ht⟩ := List.mem_iff_getElem?.1 (((interiorOrigins_props hP.interior ig).2 _ _).1 ⟨_, _, _, hac⟩)
  obtain ⟨s, hs⟩ := List.mem_iff_getElem?.1
    (((interiorOrigins_props hP.interior j).2 _ _).1 ⟨_, _, _, hP.interior.symm _ _ _ _ _ _ hac⟩)
  exact ⟨t, s, ⟨l', ig, rows', _, c1, c2, c3, ht, hs⟩, ⟨el, e1, f, h4, ht, a3⟩, ⟨el', e2, f', h5, hs, b3⟩⟩

/-- So are neighboring faces of two parts; the affine map is that of the direction from `q` to `p`. -/
theorem adjPartPair_part (hP : Partitioned m parts) (hp : getMeshPart m parts p = .ok pm) (hselp : (p, selp) ∈ parts)
    (hq : getMeshPart m parts q = .ok qm) (hselq : (q, selq) ∈ parts) {i j t' s' : Nat} {aff : A}
    (h : AdjPartPair (.partition p) (.partition q) pm.groups qm.groups pm.fags qm.fags p i j aff (t', s')) :
    ∃ t s, AdjPair m.groups m.fags j i aff (s, t) ∧
      SameBdry m pm selp (tagOrigins (.partition q) pm.groups pm.fags i) (interiorOrigins m.groups m.fags i) i t' t ∧
      SameBdry m qm selq (tagOrigins (.partition p) qm.groups qm.fags j) (interiorOrigins m.groups m.fags j) j s' s := by
  obtain ⟨fg, t1, rows, ⟨el', f', nel, f⟩, el, h1, h2, h3, h4, h5, h6⟩ := h
  obtain ⟨pidx, required, hs, hv⟩ := hP.spec hp hselp
  obtain ⟨qidx, required', hs', _⟩ := hP.spec hq hselq
  obtain ⟨_, rfl, _⟩ := part_interPart_mem hs' h1 h2
  simp only at h3 h4 h5 h6
  have hvia : FacesPart qm.fags aff ⟨j, el', f'⟩ p nel f := ⟨fg, rows, h1, h2, h3⟩
  obtain ⟨hne, ⟨g1, e1, f1⟩, ⟨g2, e2, f2⟩, selp', e, ⟨a1, a2, a3⟩, hp', hk, hg, hf, l', rows', c1, c2, c3⟩ :=
    (C12_inter_part_exact hP.adj hP.ids hP.sorted hq hselq aff _ p nel f).1 hvia
  simp only at a1 a2 a3 hg hf c1 c2 c3
  subst a1 a2 hf
  obtain ⟨k1, hk1⟩ := List.mem_iff_getElem?.1 hselp
  obtain ⟨k2, hk2⟩ := List.mem_iff_getElem?.1 hp'
  obtain ⟨rfl, rfl⟩ := parts_index_unique hP.ids hk1 hk2
  obtain ⟨⟨i2, hi2⟩, _⟩ := (isGlobalNr_part (hs.selSorted hv).1 (hs.filterSpec hv) hk el).1 h4
  obtain ⟨rfl, rfl⟩ := (C01_numbering_bijective m.sizes e).2 _ _ _ _ hi2 hg
  have hac : Across m.fags j e1 f' i i2 f2 := ⟨l', c1, j, rows', aff, c2, c3⟩
  obtain ⟨s, hs⟩ := List.mem_iff_getElem?.1 (((interiorOrigins_props hP.interior j).2 _ _).1 ⟨_, _, _, hac⟩)
  obtain ⟨t, ht⟩ := List.mem_iff_getElem?.1
    (((interiorOrigins_props hP.interior i).2 _ _).1 ⟨_, _, _, hP.interior.symm _ _ _ _ _ _ hac⟩)
  exact ⟨t, s, ⟨l', j, rows', _, c1, c2, c3, hs, ht⟩, ⟨el, i2, f2, h5, ht, ⟨nel, e, hk, h4, hg⟩⟩,
    ⟨el', e1, f', h6, hs, a3⟩⟩

theorem PartDiscr.group {O : Nat → List ElFace} {D E : BdryDiscr a d} (h : PartDiscr m pm selp O D E) {i : Nat}
    {g' : FaceGroup d} (hg : E.groups[i]? = some g') :
    ∃ g, D.groups[i]? = some g ∧ g' = { g with nel := (O i).length } := by
  rw [h.groups, Option.map_eq_some_iff] at hg
  obtain ⟨g, h1, h2⟩ := hg
  exact ⟨g, h1, h2.symm⟩

theorem PartDiscr.length {O : Nat → List ElFace} {D E : BdryDiscr a d} (h : PartDiscr m pm selp O D E) :
    E.groups.length = D.groups.length := by
  have : ∀ i : Nat, i < E.groups.length ↔ i < D.groups.length := by
    intro i
    have := congrArg Option.isSome (h.groups i)
    rw [Option.isSome_map, Bool.eq_iff_iff, Option.isSome_iff_exists, Option.isSome_iff_exists] at this
    simpa [List.getElem?_eq_some_iff] using this
  apply le_antisymm
  · by_contra hn
    have := (this D.groups.length).1 (by omega)
    omega
  · by_contra hn
    have := (this E.groups.length).2 (by omega)
    omega

end

/-! ## Runs on the parts -/

section
variable [DecidableEq A] {lstsq : ∀ d, (Fin d → Fin a → ℝ) → (Fin a → ℝ) → Fin d → ℝ} {m : MMesh N P A} {parts : Parts}
  {p q : Nat} {pm qm : MMesh N P A} {selp selq : List Nat} {tol : ℝ} {move : A → (Fin a → ℝ) → Fin a → ℝ}
  {D E T S : BdryDiscr a d} {r : FaceRestr M (List (Fin d → ℝ))} {opp : List (List (Batch (List (Fin d → ℝ))))}

omit [DecidableEq A] in
theorem part_groups_length (hP : Partitioned m parts) (hp : getMeshPart m parts p = .ok pm) :
    pm.groups.length = m.groups.length :=
  (C09_part_elements hP.ids hP.sorted hp).choose_spec.2.2.1

omit [DecidableEq A] in
/-- Faces with coinciding nodes have them in the parts. -/
theorem conforming_part (hP : Partitioned m parts) (hp : getMeshPart m parts p = .ok pm) (hselp : (p, selp) ∈ parts)
    (hE : PartDiscr m pm selp (sideOrigins pm none) D E) (hc : ConformingNodes m.groups m.fags tol move D) :
    ConformingNodes pm.groups pm.fags tol move E := by
  rintro i j aff ⟨t', s'⟩ tg g h htg hg k hk
  obtain ⟨t, s, h1, h2, h3⟩ := adjPair_part hP hp hselp h
  obtain ⟨tg0, a1, rfl⟩ := hE.group htg
  obtain ⟨g0, b1, rfl⟩ := hE.group hg
  rw [hE.pos i t' t h2, hE.pos j s' s h3]
  exact hc i j aff (t, s) tg0 g0 h1 a1 b1 k hk

omit [DecidableEq A] in
theorem conforming_parts (hP : Partitioned m parts) (hp : getMeshPart m parts p = .ok pm) (hselp : (p, selp) ∈ parts)
    (hq : getMeshPart m parts q = .ok qm) (hselq : (q, selq) ∈ parts)
    (hT : PartDiscr m pm selp (sideOrigins pm (some q)) D T) (hS : PartDiscr m qm selq (sideOrigins qm (some p)) D S)
    (hc : ConformingNodes m.groups m.fags tol move D) (hb : MovesBack m.groups m.fags move) :
    ConformingParts (.partition p) (.partition q) pm.groups qm.groups pm.fags qm.fags p tol move T S := by
  rintro i j aff ⟨t', s'⟩ tg g h htg hg k hk
  obtain ⟨t, s, h1, h2, h3⟩ := adjPartPair_part hP hp hselp hq hselq h
  obtain ⟨tg0, a1, rfl⟩ := hT.group htg
  obtain ⟨g0, b1, rfl⟩ := hS.group hg
  rw [hT.pos i t' t h2, hS.pos j s' s h3]
  obtain ⟨aff', h4⟩ := adjPair_symm hP.interior h1
  obtain ⟨f, hf⟩ := hc i j aff' (t, s) tg0 g0 h4 a1 b1 k hk
  exact ⟨f, (oneNear_back (hb _ _ _ _ _ _ h4 h1)).1 hf⟩

omit [DecidableEq A] in
/-- C120: if the opposite-face connection of the whole mesh works, those of the parts are made. -/
theorem C120_inside_defined (hP : Partitioned m parts) (R : OppositeRun lstsq m.groups m.fags tol move D r opp)
    (htol : 0 < tol) (hp : getMeshPart m parts p = .ok pm) (hselp : (p, selp) ∈ parts)
    (hE : PartDiscr m pm selp (sideOrigins pm none) D E) {un : Nat → Nat → List (Fin d → ℝ)} {res : Nat → Nat → N → M}
    {nv : Nat} {rp : FaceRestr M (List (Fin d → ℝ))}
    (hr : makeFaceRestriction false un res .interior nv pm.groups pm.fags = some rp) :
    ∃ opp', makeOpposite (crossOpposite lstsq tol move E) (pm.groups.map ElGroup.nfaces) pm.fags rp.batches =
      some opp' :=
  C95_conforming_defined hr (part_nfaces hP hp R.faces) (C102_interior hP hp) htol
    (fun i hi => ⟨_, List.getElem?_eq_getElem (by
      rw [hE.length, R.groupsOK.1, ← part_groups_length hP hp]; exact hi)⟩)
    (conforming_part hP hp hselp hE R.conforming)

/-- C120: so are those between two parts. -/
theorem C120_between_defined (hP : Partitioned m parts) (R : OppositeRun lstsq m.groups m.fags tol move D r opp)
    (htol : 0 < tol) (hp : getMeshPart m parts p = .ok pm) (hselp : (p, selp) ∈ parts)
    (hq : getMeshPart m parts q = .ok qm) (hselq : (q, selq) ∈ parts)
    (hT : PartDiscr m pm selp (sideOrigins pm (some q)) D T) (hS : PartDiscr m qm selq (sideOrigins qm (some p)) D S)
    {un un' : Nat → Nat → List (Fin d → ℝ)} {res res' : Nat → Nat → N → M}
    {nv nv' : Nat} {rp rq : FaceRestr M (List (Fin d → ℝ))}
    (hrp : makeFaceRestriction false un res (.tag (.partition q)) nv pm.groups pm.fags = some rp)
    (hrq : makeFaceRestriction false un' res' (.tag (.partition p)) nv' qm.groups qm.fags = some rq) :
    ∃ conn, makePartConn (crossPart lstsq tol move T S) (pm.groups.map ElGroup.nelements) rp.batches
      (makeRemoteInfos p qm.fags rq.batches) = some conn :=
  C95_partition_defined hrp hrq (part_nfaces hP hp R.faces) (part_nfaces hP hq R.faces) (C102_side hP hp hq)
    (C102_side hP hq hp) (C102_symmetric hP hp hq) htol
    (fun i hi => ⟨_, List.getElem?_eq_getElem (by
      rw [hT.length, R.groupsOK.1, ← part_groups_length hP hp]; exact hi)⟩)
    (fun i hi => ⟨_, List.getElem?_eq_getElem (by
      rw [hS.length, R.groupsOK.1, ← part_groups_length hP hq]; exact hi)⟩)
    (conforming_parts hP hp hselp hq hselq hT hS R.conforming R.back)

omit [DecidableEq A] in
/-- What C115 assumes holds for the parts. -/
theorem oppositeRun_part (hP : Partitioned m parts) (R : OppositeRun lstsq m.groups m.fags tol move D r opp)
    (hp : getMeshPart m parts p = .ok pm) (hselp : (p, selp) ∈ parts)
    (hE : PartDiscr m pm selp (sideOrigins pm none) D E) {rp : FaceRestr M (List (Fin d → ℝ))}
    {opp' : List (List (Batch (List (Fin d → ℝ))))}
    (hr : ∃ (un : Nat → Nat → List (Fin d → ℝ)) (res : Nat → Nat → N → M) (nv : Nat),
      makeFaceRestriction false un res .interior nv pm.groups pm.fags = some rp)
    (ho : makeOpposite (crossOpposite lstsq tol move E) (pm.groups.map ElGroup.nfaces) pm.fags rp.batches = some opp') :
    OppositeRun lstsq pm.groups pm.fags tol move E rp opp' where
  dim := R.dim
  restr := hr
  faces := part_nfaces hP hp R.faces
  ok := C102_interior hP hp
  made := ho
  groupsOK := ⟨by rw [hE.length, R.groupsOK.1, part_groups_length hP hp], fun j g hg => by
    obtain ⟨g0, _, rfl⟩ := hE.group hg
    rfl⟩
  apart := fun j g hg => by
    obtain ⟨g0, h, rfl⟩ := hE.group hg
    exact R.apart j g0 h
  unisolvent := fun j g hg => by
    obtain ⟨g0, h, rfl⟩ := hE.group hg
    exact R.unisolvent j g0 h
  conforming := conforming_part hP hp hselp hE R.conforming
  back := by
    intro i j aff aff' t' s' h h' x y
    obtain ⟨t, s, h1, h2, h3⟩ := adjPair_part hP hp hselp h
    obtain ⟨s1, t1, h4, h5, h6⟩ := adjPair_part hP hp hselp h'
    obtain rfl := sameBdry_fun hP.interior h2 h6
    obtain rfl := sameBdry_fun hP.interior h3 h5
    exact R.back i j aff aff' _ _ h1 h4 x y

/-- What C116 assumes holds for two parts. -/
theorem partRun_part (hP : Partitioned m parts) (R : OppositeRun lstsq m.groups m.fags tol move D r opp)
    (hp : getMeshPart m parts p = .ok pm) (hselp : (p, selp) ∈ parts)
    (hq : getMeshPart m parts q = .ok qm) (hselq : (q, selq) ∈ parts)
    (hT : PartDiscr m pm selp (sideOrigins pm (some q)) D T) (hS : PartDiscr m qm selq (sideOrigins qm (some p)) D S)
    {rp rq : FaceRestr M (List (Fin d → ℝ))} {conn : List (List (Batch (List (Fin d → ℝ))))}
    (hrp : ∃ (un : Nat → Nat → List (Fin d → ℝ)) (res : Nat → Nat → N → M) (nv : Nat),
      makeFaceRestriction false un res (.tag (.partition q)) nv pm.groups pm.fags = some rp)
    (hrq : ∃ (un : Nat → Nat → List (Fin d → ℝ)) (res : Nat → Nat → N → M) (nv : Nat),
      makeFaceRestriction false un res (.tag (.partition p)) nv qm.groups qm.fags = some rq)
    (hc : makePartConn (crossPart lstsq tol move T S) (pm.groups.map ElGroup.nelements) rp.batches
      (makeRemoteInfos p qm.fags rq.batches) = some conn) :
    PartRun lstsq (.partition p) (.partition q) p q pm.groups qm.groups pm.fags qm.fags tol move T S rp rq conn where
  dim := R.dim
  restrP := hrp
  restrQ := hrq
  facesP := part_nfaces hP hp R.faces
  facesQ := part_nfaces hP hq R.faces
  sideP := C102_side hP hp hq
  sideQ := C102_side hP hq hp
  symm := C102_symmetric hP hp hq
  made := hc
  groupsT := ⟨by rw [hT.length, R.groupsOK.1, part_groups_length hP hp], fun j g hg => by
    obtain ⟨g0, _, rfl⟩ := hT.group hg
    rfl⟩
  groupsS := ⟨by rw [hS.length, R.groupsOK.1, part_groups_length hP hq], fun j g hg => by
    obtain ⟨g0, _, rfl⟩ := hS.group hg
    rfl⟩
  apart := fun j g hg => by
    obtain ⟨g0, h, rfl⟩ := hS.group hg
    exact R.apart j g0 h
  unisolvent := fun j g hg => by
    obtain ⟨g0, h, rfl⟩ := hS.group hg
    exact R.unisolvent j g0 h
  conforming := conforming_parts hP hp hselp hq hselq hT hS R.conforming R.back

/-! ## Values -/

variable {find : List (Fin d → ℝ) → List (Fin d → ℝ) → List (Option Nat)}
  {resample : List ((Fin d → ℝ) → ℝ) → List (Fin d → ℝ) → List (Fin d → ℝ) → Option (Mat ℝ)}
  {Ms : Nat → MMesh N P A} {nbs : Nat → List Nat} {Es : Nat → Option Nat → BdryDiscr a d}
  {rs : Nat → Option Nat → FaceRestr M (List (Fin d → ℝ))}
  {con : Nat → Option Nat → List (List (Batch (List (Fin d → ℝ))))}

theorem DistributedRun.neighbor (H : DistributedRun lstsq m parts tol move D r opp Ms nbs Es rs con)
    {x : Nat × List Nat} (hx : x ∈ parts) {q : Nat} (hq : q ∈ nbs x.1) :
    q ≠ x.1 ∧ x.1 ∈ nbs q ∧ ∃ selq, (q, selq) ∈ parts := by
  obtain ⟨hne, selq, h1, qs, h2, h3⟩ := connected_part H.partitioned H.made (show (x.1, x.2) ∈ parts from hx)
    (H.connected x hx) hq
  have := H.connected _ h1
  rw [h2] at this
  obtain rfl := Option.some.inj this
  exact ⟨hne, h3, selq, h1⟩

/-- C120: what a part gets at the nodes of its faces, from its own opposite-face connection and from the connections to
the other parts, is what the whole mesh gets from its opposite-face connection. -/
theorem C120_values (H : DistributedRun lstsq m parts tol move D r opp Ms nbs Es rs con) (hf : FindNear 0 find)
    (hr : ResampleSound resample) {sj merge sj' merge' : Bool} {ary u : DofArr ℝ} {arys : Nat → Option Nat → DofArr ℝ}
    {u' : DofArr ℝ}
    (hc : (SameConn.direct (D.groups.map FaceGroup.toS) (D.groups.map FaceGroup.toS) opp sj).call find resample merge
      ary = .ok u)
    (ha : ∀ x ∈ parts, ∀ o ∈ partSides (nbs x.1), SameData m (Ms x.1) x.2 (sideOrigins (Ms x.1) o) D (arys x.1 o) ary)
    {x : Nat × List Nat} (hx : x ∈ parts) {o : Option Nat} (ho : o ∈ partSides (nbs x.1))
    (hc' : (SameConn.direct ((otherSide Es x.1 o).groups.map FaceGroup.toS) ((Es x.1 o).groups.map FaceGroup.toS)
      (con x.1 o) sj').call find resample merge' (otherSide arys x.1 o) = .ok u') :
    SameData m (Ms x.1) x.2 (sideOrigins (Ms x.1) o) D u' u := by
  have hP := H.partitioned
  have R := H.whole
  intro i t' t hs g hg k hk
  have hE := H.discr x hx o ho
  have hg' : (Es x.1 o).groups[i]? = some { g with nel := (sideOrigins (Ms x.1) o i).length } := by
    rw [hE.groups, hg]
    rfl
  have ht' : t' < (sideOrigins (Ms x.1) o i).length := by
    obtain ⟨_, _, _, h, _⟩ := hs
    exact (List.getElem?_eq_some_iff.1 h).1
  have ht : t < g.nel := by
    obtain ⟨_, _, _, _, h, _⟩ := hs
    rw [R.groupsOK.2 i g hg]
    exact (List.getElem?_eq_some_iff.1 h).1
  cases o with
  | none =>
    have R' := oppositeRun_part hP R (H.made x hx) hx hE (H.restrI x hx) (H.inside x hx)
    obtain ⟨j, s', k', hp⟩ := exists_partner R'.ok R'.groupsOK R'.conforming hg' ht' hk
    rw [C115_value R' hf hr hc' hg' ht' hk hp]
    obtain ⟨aff, g2, h1, h2, h3⟩ := hp
    obtain ⟨t1, s, h4, h5, h6⟩ := adjPair_part hP (H.made x hx) hx h1
    obtain rfl := sameBdry_fun hP.interior hs h5
    obtain ⟨g3, b1, rfl⟩ := hE.group h2
    rw [hE.pos i t' t hs, hE.pos j s' s h6] at h3
    rw [C115_value R hf hr hc hg ht hk ⟨aff, g3, h4, b1, h3⟩]
    exact ha x hx none ho j s' s h6 g3 b1 k' h3.1
  | some q =>
    have hq : q ∈ nbs x.1 := by simpa [partSides] using ho
    obtain ⟨hne, hq', selq, hselq⟩ := H.neighbor hx hq
    have ho' : some x.1 ∈ partSides (nbs q) := by simp [partSides, hq']
    have hS := H.discr _ hselq _ ho'
    have R' := partRun_part hP R (H.made x hx) hx (H.made _ hselq) hselq hE hS (H.restrB x hx q hq)
      (H.restrB _ hselq _ hq') (H.between x hx q hq)
    obtain ⟨j, s', k', hp⟩ := exists_partPartner R' hg' ht' hk
    rw [C116_value R' hf hr hc' hg' ht' hk hp]
    obtain ⟨aff, g2, h1, h2, h3⟩ := hp
    obtain ⟨t1, s, h4, h5, h6⟩ := adjPartPair_part hP (H.made x hx) hx (H.made _ hselq) hselq h1
    obtain rfl := sameBdry_fun hP.interior hs h5
    obtain ⟨g3, b1, rfl⟩ := hS.group h2
    rw [hE.pos i t' t hs, hS.pos j s' s h6] at h3
    obtain ⟨aff', h7⟩ := adjPair_symm hP.interior h4
    rw [C115_value R hf hr hc hg ht hk ⟨aff', g3, h7, b1, (oneNear_back (R.back _ _ _ _ _ _ h7 h4)).2 h3⟩]
    exact ha _ hselq _ ho' j s' s h6 g3 b1 k' h3.1

omit [DecidableEq A] in
/-- The faces with the tag of another part are those of the inter-part groups. -/
theorem part_tagged (hP : Partitioned m parts) (hp : getMeshPart m parts p = .ok pm) {l' : List (Fag A)}
    (hl : l' ∈ pm.fags) {fag : Fag A} (hfag : fag ∈ l') (q : Nat) :
    (∃ fs, fag.bdry? = some (BTag.partition q, fs)) ↔ ∃ ig t' rows aff, fag = Fag.interPart ig t' q rows aff := by
  obtain ⟨pidx, sel, required, hs⟩ := getMeshPart_ok hp
  obtain ⟨i, hi⟩ := List.mem_iff_getElem?.1 hl
  constructor
  · rintro ⟨fs, hfs⟩
    cases fag with
    | interior => simp [Fag.bdry?] at hfs
    | interPart ig t' part rows aff =>
      obtain ⟨_, rfl, _⟩ := part_interPart_mem hs hi hfag
      simp only [Fag.bdry?, Option.some.injEq, Prod.mk.injEq, BTag.partition.injEq] at hfs
      obtain ⟨rfl, _⟩ := hfs
      exact ⟨_, _, _, _, rfl⟩
    | boundary ig t fs' =>
      exfalso
      simp only [Fag.bdry?, Option.some.injEq, Prod.mk.injEq] at hfs
      obtain ⟨rfl, rfl⟩ := hfs
      rw [part_fags_getElem? hs] at hi
      obtain ⟨l, hl0, rfl⟩ := Option.map_eq_some_iff.1 hi
      rcases mem_completeGroup.1 hfag with h | ⟨_, h⟩ | ⟨_, h⟩ | ⟨_, h⟩
      · rw [List.mem_append, List.mem_append] at h
        rcases h with (h | h) | h
        · exact absurd (not_interPart_selfToSelf h) (by simp [Fag.bdry?])
        · obtain ⟨_, _, _, _, _, _, _, h1, _⟩ := mem_selfToOther.1 h
          simp at h1
        · simp only [partBoundaryGroups, List.mem_map, List.mem_filterMap, Fag.boundary.injEq] at h
          obtain ⟨⟨t, fs⟩, ⟨fg0, h1, h2⟩, _, rfl, _⟩ := h
          exact hP.whole l (List.mem_of_getElem? hl0) fg0 h1 _ _ h2
      all_goals simp at h
  · rintro ⟨ig, t', rows, aff, rfl⟩
    obtain ⟨_, rfl, _⟩ := part_interPart_mem hs hi hfag
    exact ⟨_, rfl⟩

omit [DecidableEq A] in
/-- C120: the parts can be restricted to their interior faces, and to the faces to another part exactly if they are
connected to it. -/
theorem C120_restricted {U : Type} (hP : Partitioned m parts) (hp : getMeshPart m parts p = .ok pm) {nb : List Nat}
    (hn : getConnectedParts (some pm.fags) = some nb) (un : Nat → Nat → U) (res : Nat → Nat → N → M) (nv : Nat) :
    (∃ rp, makeFaceRestriction false un res .interior nv pm.groups pm.fags = some rp) ∧
      ∀ q, q ∈ nb ↔ ∃ rp, makeFaceRestriction false un res (.tag (.partition q)) nv pm.groups pm.fags = some rp := by
  refine ⟨?_, fun q => ?_⟩
  · rw [← Option.isSome_iff_exists, ← Option.ne_none_iff_isSome, Ne, C27_defined]
    simp
  · rw [← Option.isSome_iff_exists, ← Option.ne_none_iff_isSome, Ne, C27_defined]
    simp only [FaceSel.tag.injEq, exists_eq_left', not_not]
    rw [(C69_exact hn).2]
    constructor
    · rintro ⟨l, hl, i, t, rows, aff, h⟩
      exact ⟨l, hl, _, h, (part_tagged hP hp hl h q).2 ⟨_, _, _, _, rfl⟩⟩
    · rintro ⟨l, hl, fag, h, h1⟩
      obtain ⟨ig, t', rows, aff, rfl⟩ := (part_tagged hP hp hl h q).1 h1
      exact ⟨l, hl, ig, t', rows, aff, h⟩

/-- C120: all connections of the parts are made if that of the whole mesh works. -/
theorem C120_defined (hP : Partitioned m parts) (hne : parts ≠ [])
    (R : OppositeRun lstsq m.groups m.fags tol move D r opp) (htol : 0 < tol)
    (hM : ∀ x ∈ parts, getMeshPart m parts x.1 = .ok (Ms x.1))
    (hn : ∀ x ∈ parts, getConnectedParts (some (Ms x.1).fags) = some (nbs x.1))
    (hE : ∀ x ∈ parts, ∀ o ∈ partSides (nbs x.1), PartDiscr m (Ms x.1) x.2 (sideOrigins (Ms x.1) o) D (Es x.1 o))
    (un : Nat → Nat → List (Fin d → ℝ)) (res : Nat → Nat → N → M) (nv : Nat)
    (hrI : ∀ x ∈ parts, makeFaceRestriction false un res .interior nv (Ms x.1).groups (Ms x.1).fags =
      some (rs x.1 none))
    (hrB : ∀ x ∈ parts, ∀ q ∈ nbs x.1, makeFaceRestriction false un res (.tag (.partition q)) nv (Ms x.1).groups
      (Ms x.1).fags = some (rs x.1 (some q))) :
    ∃ con, DistributedRun lstsq m parts tol move D r opp Ms nbs Es rs con := by
  have h1 : ∀ p, ∃ c, (∃ sel, (p, sel) ∈ parts) → makeOpposite (crossOpposite lstsq tol move (Es p none))
      ((Ms p).groups.map ElGroup.nfaces) (Ms p).fags (rs p none).batches = some c := by
    intro p
    by_cases hx : ∃ sel, (p, sel) ∈ parts
    · obtain ⟨sel, hx⟩ := hx
      obtain ⟨c, hc⟩ := C120_inside_defined hP R htol (hM _ hx) hx (hE _ hx none (by simp [partSides])) (hrI _ hx)
      exact ⟨c, fun _ => hc⟩
    · exact ⟨[], fun h => absurd h hx⟩
  have h2 : ∀ p q, ∃ c, ((∃ sel, (p, sel) ∈ parts) ∧ q ∈ nbs p) →
      makePartConn (crossPart lstsq tol move (Es p (some q)) (Es q (some p)))
      ((Ms p).groups.map ElGroup.nelements) (rs p (some q)).batches
      (makeRemoteInfos p (Ms q).fags (rs q (some p)).batches) = some c := by
    intro p q
    by_cases hx : (∃ sel, (p, sel) ∈ parts) ∧ q ∈ nbs p
    · obtain ⟨⟨sel, hx⟩, hq⟩ := hx
      obtain ⟨_, selq, h1, qs, h2, h3⟩ := connected_part hP hM hx (hn _ hx) hq
      have h4 := hn _ h1
      rw [h2] at h4
      obtain rfl := Option.some.inj h4
      obtain ⟨c, hc⟩ := C120_between_defined hP R htol (hM _ hx) hx (hM _ h1) h1
        (hE _ hx (some q) (by simpa [partSides] using hq)) (hE _ h1 (some p) (by simpa [partSides] using h3))
        (hrB _ hx q hq) (hrB _ h1 p h3)
      exact ⟨c, fun _ => hc⟩
    · exact ⟨[], fun h => absurd h hx⟩
  choose cI hI using h1
  choose cB hB using h2
  refine ⟨fun p o => match o with | none => cI p | some q => cB p q, ⟨hP, hne, R, hM, hn, hE, ?_, ?_, ?_, ?_⟩⟩
  · exact fun x hx => ⟨un, res, nv, hrI x hx⟩
  · exact fun x hx q hq => ⟨un, res, nv, hrB x hx q hq⟩
  · exact fun x hx => hI x.1 ⟨x.2, hx⟩
  · exact fun x hx q hq => hB x.1 q ⟨⟨x.2, hx⟩, hq⟩

/-- C120: the connections of the parts can be evaluated, if there are not too many batches. -/
theorem C120_call (H : DistributedRun lstsq m parts tol move D r opp Ms nbs Es rs con)
    (hf : ∀ src tgt, (∀ x ∈ src, x ∈ tgt) → none ∉ find src tgt) {x : Nat × List Nat} (hx : x ∈ parts) {o : Option Nat}
    (ho : o ∈ partSides (nbs x.1)) (hfew : ∀ els ∈ (rs x.1 o).groups, els.length ≤ 128) (sj merge : Bool)
    (ary : DofArr ℝ) :
    ∃ u, (SameConn.direct ((otherSide Es x.1 o).groups.map FaceGroup.toS) ((Es x.1 o).groups.map FaceGroup.toS)
      (con x.1 o) sj).call find resample merge ary = .ok u := by
  have hP := H.partitioned
  cases o with
  | none =>
    have R' := oppositeRun_part hP H.whole (H.made x hx) hx (H.discr x hx none ho) (H.restrI x hx) (H.inside x hx)
    obtain ⟨un, res, nv, hr⟩ := R'.restr
    refine C95_conforming_call R'.dim hr R'.faces R'.ok R'.made (fun j g hg => (R'.apart j g hg).2) R'.conforming
      resample hf ?_ sj merge ary
    intro bs hbs
    obtain ⟨i, hi⟩ := List.mem_iff_getElem?.1 hbs
    obtain ⟨els, h1, h2⟩ := opposite_batch_count hr R'.faces R'.ok R'.made hi
    exact h2.trans (hfew els (List.mem_of_getElem? h1))
  | some q =>
    have hq : q ∈ nbs x.1 := by simpa [partSides] using ho
    obtain ⟨hne, hq', selq, hselq⟩ := H.neighbor hx hq
    have R' := partRun_part hP H.whole (H.made x hx) hx (H.made _ hselq) hselq (H.discr x hx _ ho)
      (H.discr _ hselq _ (by simp [partSides, hq'])) (H.restrB x hx q hq) (H.restrB _ hselq _ hq') (H.between x hx q hq)
    obtain ⟨un, res, nv, hr⟩ := R'.restrP
    obtain ⟨un', res', nv', hr'⟩ := R'.restrQ
    refine C95_partition_call R'.dim hr hr' R'.facesP R'.facesQ R'.sideP R'.sideQ R'.symm R'.made
      (fun j g hg => (R'.apart j g hg).2) R'.conforming resample hf ?_ sj merge ary
    intro bs hbs
    obtain ⟨i, hi⟩ := List.mem_iff_getElem?.1 hbs
    obtain ⟨els, h1, h2⟩ := partition_batch_count hr hr' R'.facesP R'.facesQ R'.sideP R'.sideQ R'.symm R'.made hi
    exact h2.trans (hfew els (List.mem_of_getElem? h1))

/-! ## Sums -/

/-- A boundary element of a part is one of the whole mesh. -/
theorem DistributedRun.exists_same (H : DistributedRun lstsq m parts tol move D r opp Ms nbs Es rs con)
    {x : Nat × List Nat} (hx : x ∈ parts) {o : Option Nat} (ho : o ∈ partSides (nbs x.1)) {i t' : Nat}
    (ht : t' < (sideOrigins (Ms x.1) o i).length) :
    ∃ t, SameBdry m (Ms x.1) x.2 (sideOrigins (Ms x.1) o i) (interiorOrigins m.groups m.fags i) i t' t := by
  have hP := H.partitioned
  have h0 := List.getElem?_eq_getElem ht
  generalize he : (sideOrigins (Ms x.1) o i)[t'] = ef at h0
  obtain ⟨el, f⟩ := ef
  have key : ∃ e₁ j e₂ f', SameElem m (Ms x.1) x.2 i el e₁ ∧ Across m.fags i e₁ f j e₂ f' := by
    cases o with
    | none =>
      obtain ⟨j, el', f', hac⟩ := ((interiorOrigins_props (C102_interior hP (H.made x hx)) i).2 _ _).2
        (List.mem_of_getElem? h0 : (⟨_, _⟩ : ElFace) ∈ _)
      obtain ⟨e1, e2, h1, _, h2⟩ := (across_part_iff hP (H.made x hx) hx).1 hac
      exact ⟨e1, j, e2, f', h1, h2⟩
    | some q =>
      obtain ⟨_, _, selq, hselq⟩ := H.neighbor hx (show q ∈ nbs x.1 by simpa [partSides] using ho)
      obtain ⟨j, el', f', hac⟩ := ((tagOrigins_props (C102_side hP (H.made x hx) (H.made _ hselq)) i).2 _ _).1
        (List.mem_of_getElem? h0 : (⟨_, _⟩ : ElFace) ∈ _)
      obtain ⟨_, e1, e2, h1, _, h2⟩ := (acrossParts_part_iff hP (H.made x hx) hx (H.made _ hselq) hselq).1 hac
      exact ⟨e1, j, e2, f', h1, h2⟩
  obtain ⟨e1, j, e2, f', h1, h2⟩ := key
  obtain ⟨t, ht⟩ := List.mem_iff_getElem?.1 (((interiorOrigins_props hP.interior i).2 _ _).1 ⟨_, _, _, h2⟩)
  exact ⟨t, el, e1, f, h0, ht, h1⟩

/-- A boundary element of the whole mesh is in one boundary of one part. -/
theorem DistributedRun.cover (H : DistributedRun lstsq m parts tol move D r opp Ms nbs Es rs con) {i t : Nat}
    (ht : t < (interiorOrigins m.groups m.fags i).length) :
    ∃ x ∈ parts, ∃ o ∈ partSides (nbs x.1), ∃ t', SameBdry m (Ms x.1) x.2 (sideOrigins (Ms x.1) o i)
        (interiorOrigins m.groups m.fags i) i t' t := by
  have hP := H.partitioned
  obtain ⟨x, hx, o, ho, t', hs, _⟩ := C102_cover hP H.made H.nonempty ht
  refine ⟨x, hx, o, ?_, t', hs⟩
  cases o with
  | none => simp [partSides]
  | some q =>
    obtain ⟨y, hy, rfl⟩ : ∃ y ∈ parts, y.1 = q := by
      simpa [exchangeSides] using ho
    obtain ⟨el, e, f, h1, _⟩ := hs
    obtain ⟨j, el', f', fg, ig, t1, rows, aff, nel, h2, h3, _⟩ :=
      ((tagOrigins_props (C102_side hP (H.made x hx) (H.made y hy)) i).2 _ _).1 (List.mem_of_getElem? h1)
    have := ((C69_exact (H.connected x hx)).2 y.1).2 ⟨fg, List.mem_of_getElem? h2, ig, t1, rows, aff, h3⟩
    simp [partSides, this]

theorem DistributedRun.sub_sides (H : DistributedRun lstsq m parts tol move D r opp Ms nbs Es rs con)
    {x : Nat × List Nat} (hx : x ∈ parts) {o : Option Nat} (ho : o ∈ partSides (nbs x.1)) :
    o ∈ exchangeSides parts := by
  cases o with
  | none => simp [exchangeSides]
  | some q =>
    obtain ⟨_, _, selq, hselq⟩ := H.neighbor hx (show q ∈ nbs x.1 by simpa [partSides] using ho)
    simp only [exchangeSides, List.mem_cons, reduceCtorEq, List.mem_map, Option.some.injEq, false_or]
    exact ⟨_, hselq, rfl⟩

/-- The sum over the elements of one group of all boundaries of all parts. -/
theorem DistributedRun.sum_group (H : DistributedRun lstsq m parts tol move D r opp Ms nbs Es rs con) (i : Nat)
    {G : Nat → ℝ} {G' : Nat × List Nat → Option Nat → Nat → ℝ}
    (hG : ∀ x ∈ parts, ∀ o ∈ partSides (nbs x.1), ∀ t' t, SameBdry m (Ms x.1) x.2 (sideOrigins (Ms x.1) o i)
      (interiorOrigins m.groups m.fags i) i t' t → G' x o t' = G t) :
    (parts.map fun x => ((partSides (nbs x.1)).map fun o =>
      ∑ t' ∈ range (sideOrigins (Ms x.1) o i).length, G' x o t').sum).sum =
      ∑ t ∈ range (interiorOrigins m.groups m.fags i).length, G t := by
  have hnd : parts.Nodup := List.Nodup.of_map _ H.partitioned.ids
  have hnd' : ∀ x ∈ parts, (partSides (nbs x.1)).Nodup := by
    intro x hx
    refine List.nodup_cons.2 ⟨by simp, ?_⟩
    exact (C69_exact (H.connected x hx)).1.map (fun _ _ h => Option.some.inj h)
  rw [← List.sum_toFinset _ hnd]
  have h1 : ∀ x ∈ parts.toFinset, ((partSides (nbs x.1)).map fun o =>
      ∑ t' ∈ range (sideOrigins (Ms x.1) o i).length, G' x o t').sum =
      ∑ y ∈ (partSides (nbs x.1)).toFinset.sigma fun o => range (sideOrigins (Ms x.1) o i).length, G' x y.1 y.2 := by
    intro x hx
    rw [← List.sum_toFinset _ (hnd' x (List.mem_toFinset.1 hx)), Finset.sum_sigma]
  rw [Finset.sum_congr rfl h1, ← Finset.sum_sigma parts.toFinset
    (fun x => (partSides (nbs x.1)).toFinset.sigma fun o => range (sideOrigins (Ms x.1) o i).length)
    (fun z => G' z.1 z.2.1 z.2.2)]
  have hex : ∀ z ∈ parts.toFinset.sigma (fun x => (partSides (nbs x.1)).toFinset.sigma fun o =>
      range (sideOrigins (Ms x.1) o i).length), ∃ t, SameBdry m (Ms z.1.1) z.1.2 (sideOrigins (Ms z.1.1) z.2.1 i)
        (interiorOrigins m.groups m.fags i) i z.2.2 t := by
    rintro ⟨x, o, t'⟩ hz
    simp only [mem_sigma, List.mem_toFinset, mem_range] at hz
    exact H.exists_same hz.1 hz.2.1 hz.2.2
  choose φ hφ using hex
  refine Finset.sum_bij φ ?_ ?_ ?_ ?_
  · intro z hz
    obtain ⟨_, _, _, _, h, _⟩ := hφ z hz
    exact mem_range.2 (List.getElem?_eq_some_iff.1 h).1
  · rintro ⟨x, o, t'⟩ hz ⟨y, o', t''⟩ hz' he
    have a := hφ _ hz
    have b := hφ _ hz'
    rw [← he] at b
    simp only [mem_sigma, List.mem_toFinset, mem_range] at hz hz'
    have hlt : φ ⟨x, o, t'⟩ (by simpa using hz) < (interiorOrigins m.groups m.fags i).length := by
      obtain ⟨_, _, _, _, h, _⟩ := a
      exact (List.getElem?_eq_some_iff.1 h).1
    obtain ⟨x0, _, o0, _, t0, _, hu⟩ := C102_cover H.partitioned H.made H.nonempty hlt
    obtain ⟨rfl, rfl, rfl⟩ := hu x hz.1 o (H.sub_sides hz.1 hz.2.1) t' a
    obtain ⟨rfl, rfl, rfl⟩ := hu y hz'.1 o' (H.sub_sides hz'.1 hz'.2.1) t'' b
    rfl
  · intro t ht
    obtain ⟨x, hx, o, ho, t', hs⟩ := H.cover (mem_range.1 ht)
    have hz : (⟨x, o, t'⟩ : Σ _ : Nat × List Nat, Σ _ : Option Nat, Nat) ∈ parts.toFinset.sigma (fun x =>
        (partSides (nbs x.1)).toFinset.sigma fun o => range (sideOrigins (Ms x.1) o i).length) := by
      simp only [mem_sigma, List.mem_toFinset, mem_range]
      refine ⟨hx, ho, ?_⟩
      obtain ⟨_, _, _, h, _⟩ := hs
      exact (List.getElem?_eq_some_iff.1 h).1
    exact ⟨_, hz, sameBdry_fun H.partitioned.interior (hφ _ hz) hs⟩
  · rintro ⟨x, o, t'⟩ hz
    have a := hφ _ hz
    simp only [mem_sigma, List.mem_toFinset, mem_range] at hz
    exact hG x hz.1 o hz.2.1 _ _ a

omit [DecidableEq A] in
theorem total_range (D : BdryDiscr a d) (F : Nat → Nat → Nat → ℝ) :
    D.total F = ∑ i ∈ range D.groups.length, ∑ t ∈ range ((D.groups[i]?.map FaceGroup.nel).getD 0),
      ∑ k ∈ range ((D.groups[i]?.map FaceGroup.n).getD 0), F i t k := by
  unfold BdryDiscr.total
  rw [Finset.sum_range]
  refine Finset.sum_congr rfl fun i _ => ?_
  simp

theorem list_sum_comm {α : Type} (l : List α) (n : Nat) (f : α → Nat → ℝ) :
    (l.map fun x => ∑ i ∈ range n, f x i).sum = ∑ i ∈ range n, (l.map fun x => f x i).sum := by
  induction l with
  | nil => simp
  | cons b l ih => simp [ih, Finset.sum_add_distrib]

/-- C120: the sum over the nodes of all interior faces of the parts and all faces between the parts, of something that
is the same on the parts and on the whole mesh, is the sum over the nodes of the interior faces of the whole mesh. -/
theorem C120_total (H : DistributedRun lstsq m parts tol move D r opp Ms nbs Es rs con) {F : Nat → Nat → Nat → ℝ}
    {F' : Nat → Option Nat → Nat → Nat → Nat → ℝ}
    (hF : ∀ x ∈ parts, ∀ o ∈ partSides (nbs x.1), SameData m (Ms x.1) x.2 (sideOrigins (Ms x.1) o) D (F' x.1 o) F) :
    (parts.map fun x => ((partSides (nbs x.1)).map fun o => (Es x.1 o).total (F' x.1 o)).sum).sum = D.total F := by
  have h1 : ∀ x ∈ parts, ∀ o ∈ partSides (nbs x.1), (Es x.1 o).total (F' x.1 o) =
      ∑ i ∈ range D.groups.length, ∑ t ∈ range (sideOrigins (Ms x.1) o i).length,
        ∑ k ∈ range ((D.groups[i]?.map FaceGroup.n).getD 0), F' x.1 o i t k := by
    intro x hx o ho
    have hE := H.discr x hx o ho
    rw [total_range, hE.length]
    refine Finset.sum_congr rfl fun i hi => ?_
    rw [hE.groups, List.getElem?_eq_getElem (mem_range.1 hi)]
    rfl
  rw [List.map_congr_left fun x hx => congrArg List.sum (List.map_congr_left fun o ho => h1 x hx o ho), total_range]
  have h2 : ∀ x : Nat × List Nat, ((partSides (nbs x.1)).map fun o => ∑ i ∈ range D.groups.length,
      ∑ t ∈ range (sideOrigins (Ms x.1) o i).length,
        ∑ k ∈ range ((D.groups[i]?.map FaceGroup.n).getD 0), F' x.1 o i t k).sum =
      ∑ i ∈ range D.groups.length, ((partSides (nbs x.1)).map fun o =>
        ∑ t ∈ range (sideOrigins (Ms x.1) o i).length,
          ∑ k ∈ range ((D.groups[i]?.map FaceGroup.n).getD 0), F' x.1 o i t k).sum := fun x => list_sum_comm _ _ _
  simp only [h2]
  rw [list_sum_comm]
  refine Finset.sum_congr rfl fun i hi => ?_
  have hg := List.getElem?_eq_getElem (mem_range.1 hi)
  have hn : (D.groups[i]?.map FaceGroup.nel).getD 0 = (interiorOrigins m.groups m.fags i).length := by
    rw [hg]
    exact H.whole.groupsOK.2 i _ hg
  rw [hn]
  refine H.sum_group i fun x hx o ho t' t hs => Finset.sum_congr rfl fun k hk => ?_
  refine hF x hx o ho i t' t hs _ hg k ?_
  rw [hg] at hk
  exact mem_range.1 hk

/-- C120: the sum over the parts of a flux computed on each part from its own values and those it gets, is the sum over
the whole mesh, for any flux function. -/
theorem C120_flux (H : DistributedRun lstsq m parts tol move D r opp Ms nbs Es rs con) (hf : FindNear 0 find)
    (hr : ResampleSound resample) {sj merge sj' merge' : Bool} {ary u : DofArr ℝ}
    {arys us : Nat → Option Nat → DofArr ℝ}
    (hc : (SameConn.direct (D.groups.map FaceGroup.toS) (D.groups.map FaceGroup.toS) opp sj).call find resample merge
      ary = .ok u)
    (ha : ∀ x ∈ parts, ∀ o ∈ partSides (nbs x.1), SameData m (Ms x.1) x.2 (sideOrigins (Ms x.1) o) D (arys x.1 o) ary)
    (hc' : ∀ x ∈ parts, ∀ o ∈ partSides (nbs x.1), (SameConn.direct ((otherSide Es x.1 o).groups.map FaceGroup.toS)
      ((Es x.1 o).groups.map FaceGroup.toS) (con x.1 o) sj').call find resample merge' (otherSide arys x.1 o) =
        .ok (us x.1 o))
    {W : Nat → Nat → Nat → ℝ} {Ws : Nat → Option Nat → Nat → Nat → Nat → ℝ}
    (hW : ∀ x ∈ parts, ∀ o ∈ partSides (nbs x.1), SameData m (Ms x.1) x.2 (sideOrigins (Ms x.1) o) D (Ws x.1 o) W)
    (h : ℝ → ℝ → ℝ) :
    (parts.map fun x => ((partSides (nbs x.1)).map fun o =>
      (Es x.1 o).total fun i t k => Ws x.1 o i t k * h (arys x.1 o i t k) (us x.1 o i t k)).sum).sum =
      D.total fun i t k => W i t k * h (ary i t k) (u i t k) := by
  refine C120_total H (F := fun i t k => W i t k * h (ary i t k) (u i t k))
    (F' := fun p o i t k => Ws p o i t k * h (arys p o i t k) (us p o i t k)) ?_
  intro x hx o ho i t' t hs g hg k hk
  simp only
  rw [hW x hx o ho i t' t hs g hg k hk, ha x hx o ho i t' t hs g hg k hk,
    C120_values H hf hr hc ha hx ho (hc' x hx o ho) i t' t hs g hg k hk]

/-- C120: nothing is lost or made in a distributed computation: a flux that changes sign when the two sides are swapped
sums to zero over the parts; all that is assumed of the weights is that those of the whole mesh agree on the two sides
of each face. -/
theorem C120_conserved (H : DistributedRun lstsq m parts tol move D r opp Ms nbs Es rs con) (hf : FindNear 0 find)
    (hr : ResampleSound resample) {sj merge sj' merge' : Bool} {ary u : DofArr ℝ}
    {arys us : Nat → Option Nat → DofArr ℝ}
    (hc : (SameConn.direct (D.groups.map FaceGroup.toS) (D.groups.map FaceGroup.toS) opp sj).call find resample merge
      ary = .ok u)
    (ha : ∀ x ∈ parts, ∀ o ∈ partSides (nbs x.1), SameData m (Ms x.1) x.2 (sideOrigins (Ms x.1) o) D (arys x.1 o) ary)
    (hc' : ∀ x ∈ parts, ∀ o ∈ partSides (nbs x.1), (SameConn.direct ((otherSide Es x.1 o).groups.map FaceGroup.toS)
      ((Es x.1 o).groups.map FaceGroup.toS) (con x.1 o) sj').call find resample merge' (otherSide arys x.1 o) =
        .ok (us x.1 o))
    {W : Nat → Nat → Nat → ℝ} {Ws : Nat → Option Nat → Nat → Nat → Nat → ℝ}
    (hW : ∀ x ∈ parts, ∀ o ∈ partSides (nbs x.1), SameData m (Ms x.1) x.2 (sideOrigins (Ms x.1) o) D (Ws x.1 o) W)
    (hWW : ∀ i t k j s k', NodePartner m.groups m.fags tol move D i t k j s k' → W i t k = W j s k')
    {h : ℝ → ℝ → ℝ} (hh : ∀ x y, h x y = -h y x) :
    (parts.map fun x => ((partSides (nbs x.1)).map fun o =>
      (Es x.1 o).total fun i t k => Ws x.1 o i t k * h (arys x.1 o i t k) (us x.1 o i t k)).sum).sum = 0 := by
  rw [C120_flux H hf hr hc ha hc' hW h]
  exact C115_flux H.whole hf hr hc hWW hh

/-- C120: so does a flux that does not change, for weights of opposite sign on the two sides. -/
theorem C120_central (H : DistributedRun lstsq m parts tol move D r opp Ms nbs Es rs con) (hf : FindNear 0 find)
    (hr : ResampleSound resample) {sj merge sj' merge' : Bool} {ary u : DofArr ℝ}
    {arys us : Nat → Option Nat → DofArr ℝ}
    (hc : (SameConn.direct (D.groups.map FaceGroup.toS) (D.groups.map FaceGroup.toS) opp sj).call find resample merge
      ary = .ok u)
    (ha : ∀ x ∈ parts, ∀ o ∈ partSides (nbs x.1), SameData m (Ms x.1) x.2 (sideOrigins (Ms x.1) o) D (arys x.1 o) ary)
    (hc' : ∀ x ∈ parts, ∀ o ∈ partSides (nbs x.1), (SameConn.direct ((otherSide Es x.1 o).groups.map FaceGroup.toS)
      ((Es x.1 o).groups.map FaceGroup.toS) (con x.1 o) sj').call find resample merge' (otherSide arys x.1 o) =
        .ok (us x.1 o))
    {n : Nat → Nat → Nat → ℝ} {ns : Nat → Option Nat → Nat → Nat → Nat → ℝ}
    (hn : ∀ x ∈ parts, ∀ o ∈ partSides (nbs x.1), SameData m (Ms x.1) x.2 (sideOrigins (Ms x.1) o) D (ns x.1 o) n)
    (hnn : ∀ i t k j s k', NodePartner m.groups m.fags tol move D i t k j s k' → n i t k = -n j s k')
    {h : ℝ → ℝ → ℝ} (hh : ∀ x y, h x y = h y x) :
    (parts.map fun x => ((partSides (nbs x.1)).map fun o =>
      (Es x.1 o).total fun i t k => ns x.1 o i t k * h (arys x.1 o i t k) (us x.1 o i t k)).sum).sum = 0 := by
  rw [C120_flux H hf hr hc ha hc' hn h]
  exact C115_central H.whole hf hr hc hnn hh

/-! ## The nodes of the boundary discretizations -/

/-- The discretization of a boundary mesh with groups of shape `shape`; `pts` are the places of the nodes of an element,
which the code gets from the nodes of the element in the mesh by resampling.
Code: meshmode/discretization/__init__.py:580-638, meshmode/discretization/connection/face.py:367-375. -/
noncomputable def BdryDiscr.ofMesh (shape : Nat → FaceGroup d) (pts : Nat → M → Nat → Fin a → ℝ)
    (r : FaceRestr M (List (Fin d → ℝ))) : BdryDiscr a d where
  groups := r.groups.zipIdx.map fun p => { shape p.2 with nel := p.1.length }
  pos := fun i t => (((r.groups[i]?.bind fun els => els[t]?).join).map fun b => pts i b.nodes).getD fun _ _ => 0

/-- The boundary that is requested for a side of a part. (Specification or proof vocabulary, no code.) -/
def sideSel : Option Nat → FaceSel
  | none => .interior
  | some q => .tag (.partition q)

omit [DecidableEq A] in
/-- The boundary mesh of a side, in terms of the faces it is made of. -/
theorem restr_side (hlen : m.groups.length = m.fags.length) (hnf : ∀ g ∈ m.groups, 0 < g.nfaces) {o : Option Nat}
    (hreq : ∀ (i : Nat) grp fg, m.groups[i]? = some grp → m.fags[i]? = some fg →
      ∀ ef ∈ groupFaces (sideSel o) grp.nelements grp.nfaces fg, ef.face < grp.nfaces)
    {un : Nat → Nat → List (Fin d → ℝ)} {res : Nat → Nat → N → M} {nv : Nat} {r : FaceRestr M (List (Fin d → ℝ))}
    (hr : makeFaceRestriction false un res (sideSel o) nv m.groups m.fags = some r) (i : Nat) :
    r.groups[i]? = m.groups[i]?.map fun grp => (sideOrigins m o i).map fun ef =>
      bdryEl (res i) r.vertices grp ef.face ef.el := by
  cases hg : m.groups[i]? with
  | none =>
    rw [List.getElem?_eq_none]
    · rfl
    · rw [(C27_group_count hr hlen fun _ => hnf).1]
      exact List.getElem?_eq_none_iff.1 hg
  | some grp =>
    have hi := (List.getElem?_eq_some_iff.1 hg).1
    have hfg := List.getElem?_eq_getElem (hlen ▸ hi : i < m.fags.length)
    obtain ⟨h, _⟩ := C27_elements hr hlen (fun _ => hnf) hg hfg (hnf _ (List.mem_of_getElem? hg))
      (hreq i grp _ hg hfg)
    simp only [bdryGroupNr, Bool.false_eq_true, if_false, origins] at h
    rw [h]
    cases o with
    | none => simp only [sideOrigins, interiorOrigins, hg, hfg, sideSel, Option.map_some]
    | some q => simp only [sideOrigins, tagOrigins, hg, hfg, sideSel, Option.map_some]

omit [DecidableEq A] in
theorem interior_requested (ok : InteriorOK m.groups m.fags) (i : Nat) (grp : ElGroup N) (fg : List (Fag A))
    (hg : m.groups[i]? = some grp) (hfg : m.fags[i]? = some fg) :
    ∀ ef ∈ groupFaces (sideSel none) grp.nelements grp.nfaces fg, ef.face < grp.nfaces := by
  intro ef hef
  obtain ⟨fag, hfag, row, hrow, h1, h2⟩ := (C27_requested .interior _ _ _ ef.el ef.face).1 hef
  cases fag with
  | interior ig j rows aff =>
    obtain ⟨g', h3, _, h4⟩ := ok.valid i row.el row.face j row.nel row.nface ⟨fg, hfg, ig, rows, aff, hfag, hrow⟩
    rw [hg] at h3
    obtain rfl := Option.some.inj h3
    omega
  | boundary => simp [Fag.interiorRows] at hrow
  | interPart => simp [Fag.interiorRows] at hrow

omit [DecidableEq A] in
/-- The data of a face of an element of a part. -/
theorem bdryEl_part (hP : Partitioned m parts) (hp : getMeshPart m parts p = .ok pm) (hselp : (p, selp) ∈ parts)
    {g i' i : Nat} (h : SameElem m pm selp g i' i) {grp grp' : ElGroup N} (hg : m.groups[g]? = some grp)
    (hg' : pm.groups[g]? = some grp') (res : Nat → N → M) (nrs nrs' : List Nat) (f : Nat) :
    (bdryEl res nrs' grp' f i').map BdryEl.nodes = (bdryEl res nrs grp f i).map BdryEl.nodes := by
  obtain ⟨pidx, required, hs, hv⟩ := hP.spec hp hselp
  obtain ⟨hso, hra⟩ := hs.selSorted hv
  have hF := hs.filterSpec hv
  obtain ⟨grp2, h1, _, hfvi, _, hel⟩ := hF.group g grp hg
  rw [hg'] at h1
  obtain rfl := Option.some.inj h1
  obtain ⟨⟨nd, n1, n2⟩, row, r1, r2, r3⟩ := hel _ _ (sameElem_filtered hso hra hF h)
  unfold bdryEl
  rw [n1, n2, r1, r3, hfvi]
  cases grp.fvi[f]? <;> rfl

/-- C120: the nodes of the boundary discretizations of the parts are where those of the whole mesh are, if the same
factory and the same resampling are used for all of them. -/
theorem C120_discr (hP : Partitioned m parts) (hp : getMeshPart m parts p = .ok pm) (hselp : (p, selp) ∈ parts)
    (hnf : ∀ g ∈ m.groups, 0 < g.nfaces) {o : Option Nat}
    (ho : ∀ q, o = some q → ∃ qm, getMeshPart m parts q = .ok qm)
    {un un' : Nat → Nat → List (Fin d → ℝ)} {res : Nat → Nat → N → M} {nv nv' : Nat}
    {r rp : FaceRestr M (List (Fin d → ℝ))}
    (hr : makeFaceRestriction false un res .interior nv m.groups m.fags = some r)
    (hrp : makeFaceRestriction false un' res (sideSel o) nv' pm.groups pm.fags = some rp)
    (shape : Nat → FaceGroup d) (pts : Nat → M → Nat → Fin a → ℝ) :
    PartDiscr m pm selp (sideOrigins pm o) (BdryDiscr.ofMesh shape pts r) (BdryDiscr.ofMesh shape pts rp) := by
  have h1 := restr_side hP.interior.len hnf (o := none) (interior_requested hP.interior) hr
  have h2 := restr_side (C102_interior hP hp).len (part_nfaces hP hp hnf) (o := o) (by
    cases o with
    | none => exact interior_requested (C102_interior hP hp)
    | some q =>
      obtain ⟨qm, hq⟩ := ho q rfl
      exact fun i grp fg hg hfg ef hef => ((C102_side hP hp hq).valid i grp fg hg hfg ef hef).2) hrp
  have hl := part_groups_length hP hp
  refine ⟨fun i => ?_, fun i t' t hs => ?_⟩
  · simp only [BdryDiscr.ofMesh, List.getElem?_map, List.getElem?_zipIdx, h1, h2, Option.map_map]
    by_cases hi : i < m.groups.length
    · rw [List.getElem?_eq_getElem hi, List.getElem?_eq_getElem (hl ▸ hi)]
      simp
    · rw [List.getElem?_eq_none (by omega), List.getElem?_eq_none (by omega)]
      simp
  · obtain ⟨el', el, f, h3, h4, h5⟩ := hs
    obtain ⟨grp, grp', hg, hg', _⟩ := sameElem_range hP hp hselp h5
    have h6 := bdryEl_part hP hp hselp h5 hg hg' (res i) r.vertices rp.vertices f
    have h4' : (sideOrigins m none i)[t]? = some ⟨el, f⟩ := h4
    simp only [BdryDiscr.ofMesh, h1, h2, hg, hg', Option.map_some, Option.bind_some, List.getElem?_map, h3, h4',
      Option.join_some]
    have h7 := congrArg (fun b => (b.map fun x => pts i x).getD fun _ _ => 0) h6
    simp only [Option.map_map] at h7
    exact h7

/-- C120: from a mesh whose opposite-face connection works, all that is needed on the parts can be made. -/
theorem C120_made (hm : MeshOK m) (hv : ValidParts (nelements m.sizes) parts) (hP : Partitioned m parts)
    (hne : parts ≠ []) {un : Nat → Nat → List (Fin d → ℝ)} {res : Nat → Nat → N → M} {nv : Nat}
    (hr : makeFaceRestriction false un res .interior nv m.groups m.fags = some r)
    {shape : Nat → FaceGroup d} {pts : Nat → M → Nat → Fin a → ℝ}
    (R : OppositeRun lstsq m.groups m.fags tol move (BdryDiscr.ofMesh shape pts r) r opp) (htol : 0 < tol) :
    ∃ Ms nbs rs con, DistributedRun lstsq m parts tol move (BdryDiscr.ofMesh shape pts r) r opp Ms nbs
      (fun p o => BdryDiscr.ofMesh shape pts (rs p o)) rs con := by
  have hmade : ∀ p, ∃ pm, (∃ sel, (p, sel) ∈ parts) → getMeshPart m parts p = .ok pm := by
    intro p
    by_cases hx : ∃ sel, (p, sel) ∈ parts
    · obtain ⟨sel, hx⟩ := hx
      exact ((C09_accepts_exactly_partitions hm hP.ids hP.sorted (List.mem_map.2 ⟨_, hx, rfl⟩)).2 hv).imp fun _ h _ => h
    · exact ⟨m, fun h => absurd h hx⟩
  choose Ms hMs using hmade
  have hM : ∀ x ∈ parts, getMeshPart m parts x.1 = .ok (Ms x.1) := fun x hx => hMs x.1 ⟨x.2, hx⟩
  let nbs : Nat → List Nat := fun p => (getConnectedParts (some (Ms p).fags)).getD []
  have hn : ∀ x ∈ parts, getConnectedParts (some (Ms x.1).fags) = some (nbs x.1) := fun _ _ => rfl
  have hrs : ∀ p o, ∃ rp, (∃ sel, (p, sel) ∈ parts) → o ∈ partSides (nbs p) →
      makeFaceRestriction false un res (sideSel o) nv (Ms p).groups (Ms p).fags = some rp := by
    intro p o
    by_cases hx : ∃ sel, (p, sel) ∈ parts
    · obtain ⟨sel, hx⟩ := hx
      obtain ⟨h1, h2⟩ := C120_restricted hP (hM _ hx) (hn _ hx) un res nv
      by_cases ho : o ∈ partSides (nbs p)
      · simp only [partSides, List.mem_cons, List.mem_map] at ho
        rcases ho with rfl | ⟨q, hq, rfl⟩
        · exact h1.imp fun _ h _ _ => h
        · exact ((h2 q).1 hq).imp fun _ h _ _ => h
      · exact ⟨r, fun _ h => absurd h ho⟩
    · exact ⟨r, fun h => absurd h hx⟩
  choose rs hrs using hrs
  refine ⟨Ms, nbs, rs, C120_defined hP hne R htol hM hn (fun x hx o ho => ?_) un res nv
    (fun x hx => hrs x.1 none ⟨x.2, hx⟩ (by simp [partSides]))
    fun x hx q hq => hrs x.1 (some q) ⟨x.2, hx⟩ (by simp [partSides, hq])⟩
  refine C120_discr hP (hM x hx) hx R.faces ?_ hr (hrs x.1 o ⟨x.2, hx⟩ ho) shape pts
  rintro q rfl
  have hq : q ∈ nbs x.1 := by simpa [partSides] using ho
  obtain ⟨_, selq, hselq, _⟩ := connected_part hP hM (show (x.1, x.2) ∈ parts from hx) (hn x hx) hq
  exact ⟨_, hM _ hselq⟩

end

/-! ## Example -/

/-- Three triangles in a strip. (Example, no code.) -/
def exStripGroup : ElGroup Nat := ⟨0, [[0, 1], [1, 2], [0, 2]], [[0, 1, 2], [3, 2, 1], [1, 4, 3]], [10, 11, 12]⟩

/-- The mesh of these. (Example, no code.) -/
def exStrip : MMesh Nat Nat Unit := ⟨[0, 1, 2, 3, 4], [exStripGroup], computeFacial () [exStripGroup] [] []⟩

/-- Two triangles in part 7, one in part 8. (Example, no code.) -/
def exStripParts : Parts := [(7, [0, 1]), (8, [2])]

/-- The parts. (Example, no code.) -/
def exStripPart (p : Nat) : MMesh Nat Nat Unit :=
  match getMeshPart exStrip exStripParts p with
  | .ok pm => pm
  | .error _ => ⟨[], [], []⟩

/-- Their neighbors. (Example, no code.) -/
def exStripNbs (p : Nat) : List Nat := if p = 7 then [8] else [7]

theorem exStrip_made : ∀ x ∈ exStripParts, getMeshPart exStrip exStripParts x.1 = .ok (exStripPart x.1) := by
  intro x hx
  simp only [exStripParts, List.mem_cons, List.not_mem_nil, or_false] at hx
  rcases hx with rfl | rfl <;> decide +kernel

theorem exStrip_connected : ∀ x ∈ exStripParts,
    getConnectedParts (some (exStripPart x.1).fags) = some (exStripNbs x.1) := by
  intro x hx
  simp only [exStripParts, List.mem_cons, List.not_mem_nil, or_false] at hx
  rcases hx with rfl | rfl <;> decide +kernel

theorem exStrip_partitioned : Partitioned exStrip exStripParts := by
  refine ⟨adjOK_of_check (by decide +kernel), ?_, by decide, ?_, ?_⟩
  · refine C29_computed_adjacency (by unfold ElGroup.WF; decide) ?_ () _ _ (by decide)
    have key : ∀ f ∈ allFaceIds exStrip.groups, ∀ f' ∈ allFaceIds exStrip.groups,
        ∀ f'' ∈ allFaceIds exStrip.groups,
        ((faceVerts exStrip.groups f).getD []).isPerm ((faceVerts exStrip.groups f').getD []) = true →
        ((faceVerts exStrip.groups f).getD []).isPerm ((faceVerts exStrip.groups f'').getD []) = true →
        f ≠ f' → f ≠ f'' → f' = f'' := by decide +kernel
    intro f f' f'' h h' h'' ⟨a, b, ha, hb, hab⟩ ⟨c, d, hc, hd, hcd⟩ n1 n2
    apply key f (mem_allFaceIds.2 h) f' (mem_allFaceIds.2 h') f'' (mem_allFaceIds.2 h'') _ _ n1 n2
    · rw [ha, hb]
      simpa [List.isPerm_iff] using hab
    · rw [hc, hd]
      simpa [List.isPerm_iff] using hcd
  · intro p hp
    simp only [exStripParts, List.mem_cons, List.not_mem_nil, or_false] at hp
    rcases hp with rfl | rfl <;> decide
  · have key : (exStrip.fags.all fun l => l.all fun fg => match fg.bdry? with
        | some (.partition _, _) => false
        | _ => true) = true := by decide +kernel
    intro l hl fg hfg q fs h
    simp only [List.all_eq_true] at key
    have := key l hl fg hfg
    simp [h] at this

theorem exStrip_origins : interiorOrigins exStrip.groups exStrip.fags 0 = [⟨0, 1⟩, ⟨1, 1⟩, ⟨1, 2⟩, ⟨2, 2⟩] := by
  decide +kernel

theorem exStrip_fags : exStrip.fags = [[.interior 0 0 [⟨0, 1, 1, 1⟩, ⟨1, 1, 0, 1⟩, ⟨1, 2, 2, 2⟩, ⟨2, 2, 1, 2⟩] (),
    .boundary 0 .all [⟨0, 0⟩, ⟨1, 0⟩, ⟨2, 0⟩, ⟨2, 1⟩, ⟨0, 2⟩], .boundary 0 .none [],
    .boundary 0 .reallyAll [⟨0, 0⟩, ⟨1, 0⟩, ⟨2, 0⟩, ⟨2, 1⟩, ⟨0, 2⟩]]] := by
  decide +kernel

/-- The place of a vertex. (Example, no code.) -/
noncomputable def exStripPlace (v : Nat) : Fin 2 → ℝ := if v = 1 then ![1, 0] else if v = 2 then ![0, 1] else ![1, 1]

/-- The faces with nodes at their vertices. (Example, no code.) -/
noncomputable def exStripDiscr : BdryDiscr 2 1 where
  groups := [{ exTwoNode with nel := 4 }]
  pos := fun i t => (([[[1, 2], [2, 1], [3, 1], [1, 3]]][i]?.bind fun els : List (List Nat) => els[t]?).map
    fun l k => exStripPlace (l.getD k 0)).getD fun _ _ => 0

theorem exStrip_pair {i j : Nat} {aff : Unit} {p : Nat × Nat} (h : AdjPair exStrip.groups exStrip.fags i j aff p) :
    i = 0 ∧ j = 0 ∧ (p = (0, 1) ∨ p = (1, 0) ∨ p = (2, 3) ∨ p = (3, 2)) := by
  obtain ⟨fg, ig, rows, row, h1, h2, h3, h4, h5⟩ := h
  match i with
  | 0 =>
    rw [exStrip_fags] at h1
    simp only [List.getElem?_cons_zero, Option.some.injEq] at h1
    subst h1
    simp only [List.mem_cons, Fag.interior.injEq, reduceCtorEq, List.not_mem_nil, or_false] at h2
    obtain ⟨rfl, rfl, rfl, _⟩ := h2
    have hnd := (interiorOrigins_props exStrip_partitioned.interior 0).1
    rw [exStrip_origins] at h4 h5 hnd
    refine ⟨rfl, rfl, ?_⟩
    obtain ⟨x, y⟩ := p
    simp only [List.mem_cons, List.not_mem_nil, or_false] at h3
    simp only [Prod.mk.injEq]
    rcases h3 with rfl | rfl | rfl | rfl
    · exact .inl ⟨nodup_getElem?_inj hnd h4 rfl, nodup_getElem?_inj hnd h5 rfl⟩
    · exact .inr (.inl ⟨nodup_getElem?_inj hnd h4 rfl, nodup_getElem?_inj hnd h5 rfl⟩)
    · exact .inr (.inr (.inl ⟨nodup_getElem?_inj hnd h4 rfl, nodup_getElem?_inj hnd h5 rfl⟩))
    · exact .inr (.inr (.inr ⟨nodup_getElem?_inj hnd h4 rfl, nodup_getElem?_inj hnd h5 rfl⟩))
  | i + 1 => simp [exStrip_fags] at h1

theorem exStrip_conforming : ConformingNodes exStrip.groups exStrip.fags (1 / 2) (fun _ x => x) exStripDiscr := by
  intro i j aff p tg g hp htg hg q hq
  obtain ⟨rfl, rfl, hpp⟩ := exStrip_pair hp
  clear hp
  have e1 : ({ exTwoNode with nel := 4 } : FaceGroup 1) = tg := by simpa [exStripDiscr] using htg
  have e2 : ({ exTwoNode with nel := 4 } : FaceGroup 1) = g := by simpa [exStripDiscr] using hg
  subst e1
  subst e2
  have hq2 : q < 2 := hq
  refine ⟨1 - q, show 1 - q < 2 by omega, ?_, ?_⟩
  · have : exStripDiscr.pos 0 p.1 q = exStripDiscr.pos 0 p.2 (1 - q) := by
      rcases hpp with rfl | rfl | rfl | rfl <;> interval_cases q <;> rfl
    simp [this]
  · intro f' hf' hn
    have hf2 : f' < 2 := hf'
    by_contra hne
    have : 1 ≤ ∑ k, (exStripDiscr.pos 0 p.1 q k - exStripDiscr.pos 0 p.2 f' k) ^ 2 := by
      rw [Fin.sum_univ_two]
      rcases hpp with rfl | rfl | rfl | rfl <;> interval_cases q <;> interval_cases f' <;>
        simp_all [exStripDiscr, exStripPlace]
    have h1 : (1 : ℝ) ≤ Real.sqrt (∑ k, (exStripDiscr.pos 0 p.1 q k - exStripDiscr.pos 0 p.2 f' k) ^ 2) := by
      rw [Real.le_sqrt' one_pos]
      simpa using this
    have h2 := h1.trans_lt hn
    norm_num at h2

theorem exStrip_group {j : Nat} {g : FaceGroup 1} (hg : exStripDiscr.groups[j]? = some g) :
    j = 0 ∧ g = { exTwoNode with nel := 4 } := by
  match j with
  | 0 => exact ⟨rfl, by simpa [exStripDiscr] using hg.symm⟩
  | j + 1 => simp [exStripDiscr] at hg

/-- The restrictions of a mesh. (Example, no code.) -/
noncomputable def exStripRestr (sel : FaceSel) (m : MMesh Nat Nat Unit) : Option (FaceRestr (Nat × Nat) (List (Fin 1 → ℝ))) :=
  makeFaceRestriction false (fun _ _ => []) (fun _ f n => (f, n)) sel 5 m.groups m.fags

/-- The connection of the whole mesh, and its result. -/
theorem exStrip_whole (lstsq : ∀ d, (Fin d → Fin 2 → ℝ) → (Fin 2 → ℝ) → Fin d → ℝ) (ary : DofArr ℝ) :
    ∃ (r : FaceRestr (Nat × Nat) (List (Fin 1 → ℝ))) (opp : _) (u : _),
      exStripRestr .interior exStrip = some r ∧
      OppositeRun lstsq exStrip.groups exStrip.fags (1 / 2) (fun _ x => x) exStripDiscr r opp ∧
      (SameConn.direct (exStripDiscr.groups.map FaceGroup.toS) (exStripDiscr.groups.map FaceGroup.toS) opp true).call
        exSearch (fun _ _ _ => none) true ary = .ok u := by
  have hlen : ((exStripRestr .interior exStrip).map fun r => r.groups.map List.length) = some [4] := by decide +kernel
  obtain ⟨r, hr, hgl⟩ := Option.map_eq_some_iff.1 hlen
  have hnf : ∀ g ∈ exStrip.groups, 0 < g.nfaces := by decide
  have ok := exStrip_partitioned.interior
  obtain ⟨opp, hopp⟩ := C95_conforming_defined (lstsq := lstsq) hr hnf ok (by norm_num : (0 : ℝ) < 1 / 2)
    (D := exStripDiscr) (by
      intro i hi
      have : i = 0 := by simpa [exStrip] using hi
      subst this
      exact ⟨_, rfl⟩) exStrip_conforming
  have hsep : ∀ (j : Nat) g, exStripDiscr.groups[j]? = some g →
      ∀ f < g.n, ∀ f' < g.n, (∀ k, |g.nodes f k - g.nodes f' k| < 1 / 2) → f = f' := by
    intro j g hg
    obtain ⟨_, rfl⟩ := exStrip_group hg
    exact exTwoNode_sep 0 exTwoNode rfl
  obtain ⟨u, hu⟩ := C95_conforming_call (by norm_num) hr hnf ok hopp hsep exStrip_conforming
    (find := exSearch) (fun _ _ _ => none) exSearch_complete (by
      intro bs hbs
      obtain ⟨i, hi⟩ := List.mem_iff_getElem?.1 hbs
      obtain ⟨els, h1, h2⟩ := opposite_batch_count hr hnf ok hopp hi
      have h3 : (r.groups.map List.length)[i]? = some els.length := by rw [List.getElem?_map, h1]; rfl
      rw [hgl] at h3
      have := List.mem_of_getElem? h3
      simp at this
      omega) true true ary
  refine ⟨r, opp, u, hr, ⟨by norm_num, ⟨_, _, _, hr⟩, hnf, ok, hopp, ⟨rfl, ?_⟩, ?_, ?_, exStrip_conforming,
    C115_identity_moves fun _ _ => rfl⟩, hu⟩
  · intro j g hg
    obtain ⟨rfl, rfl⟩ := exStrip_group hg
    rw [exStrip_origins]
    rfl
  · intro j g hg
    refine ⟨?_, hsep j g hg⟩
    obtain ⟨rfl, rfl⟩ := exStrip_group hg
    decide
  · intro j g hg
    obtain ⟨rfl, rfl⟩ := exStrip_group hg
    exact exTwoNode_values

/-- The places of the nodes of a boundary element, given by its face and the nodes of its volume element.
(Example, no code.) -/
noncomputable def exStripPts (_ : Nat) (n : Nat × Nat) (k : Nat) : Fin 2 → ℝ :=
  exStripPlace ((if n = (1, 10) then [1, 2] else if n = (1, 11) then [2, 1] else if n = (2, 11) then [3, 1]
    else [1, 3]).getD k 0)

theorem exStrip_ofMesh {r : FaceRestr (Nat × Nat) (List (Fin 1 → ℝ))} (h : exStripRestr .interior exStrip = some r) :
    BdryDiscr.ofMesh (fun _ => exTwoNode) exStripPts r = exStripDiscr := by
  have hg : ((exStripRestr .interior exStrip).map fun r => r.groups) = some [[some ⟨[1, 2], (1, 10)⟩,
      some ⟨[2, 1], (1, 11)⟩, some ⟨[3, 1], (2, 11)⟩, some ⟨[1, 3], (2, 12)⟩]] := by decide +kernel
  rw [h] at hg
  have hg := Option.some.inj hg
  simp only [BdryDiscr.ofMesh, exStripDiscr, hg, BdryDiscr.mk.injEq]
  refine ⟨rfl, ?_⟩
  funext i t
  match i, t with
  | 0, 0 => rfl
  | 0, 1 => rfl
  | 0, 2 => rfl
  | 0, 3 => rfl
  | 0, t + 4 => rfl
  | i + 1, t => rfl

/-- Non-vacuity of C120_discr and C120_made: their hypotheses hold for the three triangles, with the discretization made
from the boundary mesh. -/
example (lstsq : ∀ d, (Fin d → Fin 2 → ℝ) → (Fin 2 → ℝ) → Fin d → ℝ) :
    ∃ (r : FaceRestr (Nat × Nat) (List (Fin 1 → ℝ))) (opp : _) (Ms : _) (nbs : _) (rs : _) (con : _),
      DistributedRun lstsq exStrip exStripParts (1 / 2) (fun _ x => x)
        (BdryDiscr.ofMesh (fun _ => exTwoNode) exStripPts r) r opp Ms nbs
        (fun p o => BdryDiscr.ofMesh (fun _ => exTwoNode) exStripPts (rs p o)) rs con := by
  obtain ⟨r, opp, _, hr, R, _⟩ := exStrip_whole lstsq fun _ _ _ => 0
  rw [← exStrip_ofMesh hr] at R
  have hok : MeshOK exStrip := ⟨by unfold ElGroup.WF; decide, by decide⟩
  exact ⟨r, opp, C120_made hok ((C09_accepts_exactly_partitions hok exStrip_partitioned.ids exStrip_partitioned.sorted
    (pid := 7) (by decide)).1 ⟨_, exStrip_made (7, [0, 1]) (by decide)⟩) exStrip_partitioned (by decide) hr R
    (by norm_num)⟩

/-- Which boundary element of the whole mesh element `t'` of a boundary of a part is. (Example, no code.) -/
def exStripIndex (p : Nat) (o : Option Nat) (i t' : Nat) : Nat :=
  ((sideOrigins (exStripPart p) o i)[t']?.map fun x => (interiorOrigins exStrip.groups exStrip.fags i).idxOf
    ⟨if p = 7 then x.el else x.el + 2, x.face⟩).getD 0

/-- Data of the whole mesh on the parts. (Example, no code.) -/
def exStripData {X : Type} (F : Nat → Nat → X) (p : Nat) (o : Option Nat) (i t' : Nat) : X := F i (exStripIndex p o i t')

theorem exStrip_index {x : Nat × List Nat} (hx : x ∈ exStripParts) {o : Option Nat} {i t' t : Nat}
    (h : SameBdry exStrip (exStripPart x.1) x.2 (sideOrigins (exStripPart x.1) o i)
      (interiorOrigins exStrip.groups exStrip.fags i) i t' t) : exStripIndex x.1 o i t' = t := by
  obtain ⟨el', el, f, h1, h2, ⟨k, e, h3, ⟨n, h4, _, h5⟩, ⟨n', h6, _, h7⟩⟩⟩ := h
  have hi : i = 0 := by
    match i with
    | 0 => rfl
    | i + 1 => simp [MMesh.sizes, exStrip] at h6
  subst hi
  have hel : (if x.1 = 7 then el' else el' + 2) = el := by
    simp only [exStripParts, List.mem_cons, List.not_mem_nil, or_false] at hx
    simp only [List.take_zero, List.sum_nil, Nat.zero_add] at h5 h7
    subst h5 h7
    rcases hx with rfl | rfl
    · match k with
      | 0 => simpa using h3
      | 1 => simpa using h3
      | k + 2 => simp at h3
    · match k with
      | 0 => simpa using h3
      | k + 1 => simp at h3
  unfold exStripIndex
  rw [h1]
  simp only [Option.map_some, Option.getD_some, hel]
  have hnd := (interiorOrigins_props exStrip_partitioned.interior 0).1
  obtain ⟨hlt, he⟩ := List.getElem?_eq_some_iff.1 h2
  rw [← he]
  exact hnd.idxOf_getElem t hlt

/-- The boundary discretizations of the parts. (Example, no code.) -/
noncomputable def exStripDiscrs (p : Nat) (o : Option Nat) : BdryDiscr 2 1 where
  groups := [{ exTwoNode with nel := (sideOrigins (exStripPart p) o 0).length }]
  pos := exStripData exStripDiscr.pos p o

/-- Their restrictions. (Example, no code.) -/
noncomputable def exStripRestrs (p : Nat) (o : Option Nat) : FaceRestr (Nat × Nat) (List (Fin 1 → ℝ)) :=
  (exStripRestr (match o with | none => .interior | some q => .tag (.partition q)) (exStripPart p)).getD ⟨[], [], []⟩

theorem getD_of_isSome {α : Type} {o : Option α} {x : α} (h : o.isSome = true) : o = some (o.getD x) := by
  cases o <;> simp_all

/-- The hypotheses of the theorems hold for the three triangles in two parts, one of which has an interior face, and
for any array; and what they say. -/
example (lstsq : ∀ d, (Fin d → Fin 2 → ℝ) → (Fin 2 → ℝ) → Fin d → ℝ) (ary : DofArr ℝ) :
    ∃ (r : _) (opp : _) (u : _) (con : _) (us : Nat → Option Nat → DofArr ℝ),
      DistributedRun lstsq exStrip exStripParts (1 / 2) (fun _ x => x) exStripDiscr r opp exStripPart exStripNbs
        exStripDiscrs exStripRestrs con ∧
      (SameConn.direct (exStripDiscr.groups.map FaceGroup.toS) (exStripDiscr.groups.map FaceGroup.toS) opp true).call
        exSearch (fun _ _ _ => none) true ary = .ok u ∧
      (∀ x ∈ exStripParts, ∀ o ∈ partSides (exStripNbs x.1), (SameConn.direct
        ((otherSide exStripDiscrs x.1 o).groups.map FaceGroup.toS) ((exStripDiscrs x.1 o).groups.map FaceGroup.toS)
        (con x.1 o) true).call exSearch (fun _ _ _ => none) true (otherSide (exStripData ary) x.1 o) = .ok (us x.1 o)) ∧
      us 8 (some 7) 0 0 1 = u 0 3 1 ∧
      (exStripDiscrs 7 none).total (fun i t k => exStripData ary 7 none i t k - us 7 none i t k) +
        (exStripDiscrs 7 (some 8)).total (fun i t k => exStripData ary 7 (some 8) i t k - us 7 (some 8) i t k) +
        ((exStripDiscrs 8 none).total (fun i t k => exStripData ary 8 none i t k - us 8 none i t k) +
        (exStripDiscrs 8 (some 7)).total (fun i t k => exStripData ary 8 (some 7) i t k - us 8 (some 7) i t k)) = 0 := by
  obtain ⟨r, opp, u, _, R, hu⟩ := exStrip_whole lstsq ary
  have hE : ∀ x ∈ exStripParts, ∀ o ∈ partSides (exStripNbs x.1), PartDiscr exStrip (exStripPart x.1) x.2
      (sideOrigins (exStripPart x.1) o) exStripDiscr (exStripDiscrs x.1 o) := by
    intro x hx o _
    refine ⟨?_, fun i t' t h => ?_⟩
    · intro i
      match i with
      | 0 => rfl
      | i + 1 => simp [exStripDiscr, exStripDiscrs]
    · change exStripDiscr.pos i (exStripIndex x.1 o i t') = _
      rw [exStrip_index hx h]
  have hrI : ∀ x ∈ exStripParts, exStripRestr .interior (exStripPart x.1) = some (exStripRestrs x.1 none) := by
    intro x hx
    refine getD_of_isSome ?_
    simp only [exStripParts, List.mem_cons, List.not_mem_nil, or_false] at hx
    rcases hx with rfl | rfl <;> decide +kernel
  have hrB : ∀ x ∈ exStripParts, ∀ q ∈ exStripNbs x.1, exStripRestr (.tag (.partition q)) (exStripPart x.1) =
      some (exStripRestrs x.1 (some q)) := by
    intro x hx q hq
    refine getD_of_isSome ?_
    simp only [exStripParts, List.mem_cons, List.not_mem_nil, or_false] at hx
    rcases hx with rfl | rfl
    · obtain rfl : q = 8 := by simpa [exStripNbs] using hq
      decide +kernel
    · obtain rfl : q = 7 := by simpa [exStripNbs] using hq
      decide +kernel
  obtain ⟨con, H⟩ := C120_defined exStrip_partitioned (by decide) R (by norm_num) exStrip_made exStrip_connected hE
    _ _ _ hrI hrB
  have hd : ∀ (F : Nat → Nat → Nat → ℝ), ∀ x ∈ exStripParts, ∀ o ∈ partSides (exStripNbs x.1),
      SameData exStrip (exStripPart x.1) x.2 (sideOrigins (exStripPart x.1) o) exStripDiscr (exStripData F x.1 o) F := by
    intro F x hx o _ i t' t h g _ k _
    change F i (exStripIndex x.1 o i t') k = _
    rw [exStrip_index hx h]
  have hcall : ∀ p o, ∃ v, (∃ x ∈ exStripParts, x.1 = p ∧ o ∈ partSides (exStripNbs p)) → (SameConn.direct
        ((otherSide exStripDiscrs p o).groups.map FaceGroup.toS) ((exStripDiscrs p o).groups.map FaceGroup.toS)
        (con p o) true).call exSearch (fun _ _ _ => none) true (otherSide (exStripData ary) p o) = .ok v := by
    intro p o
    by_cases h : ∃ x ∈ exStripParts, x.1 = p ∧ o ∈ partSides (exStripNbs p)
    · obtain ⟨x, hx, rfl, ho⟩ := h
      have hl : ((exStripRestrs x.1 o).groups.map List.length).all (· ≤ 128) = true := by
        simp only [exStripParts, List.mem_cons, List.not_mem_nil, or_false] at hx
        rcases hx with rfl | rfl
        · simp only [partSides, exStripNbs, if_pos, List.map_cons, List.map_nil, List.mem_cons,
            List.not_mem_nil, or_false] at ho
          rcases ho with rfl | rfl <;> decide +kernel
        · simp only [partSides, exStripNbs, List.map_cons, List.map_nil, List.mem_cons,
            List.not_mem_nil, or_false, show ¬ (8 = 7) by decide, if_false] at ho
          rcases ho with rfl | rfl <;> decide +kernel
      have hfew : ∀ els ∈ (exStripRestrs x.1 o).groups, els.length ≤ 128 := by
        intro els hels
        rw [List.all_eq_true] at hl
        simpa using hl _ (List.mem_map_of_mem hels)
      obtain ⟨v, hv⟩ := C120_call H (find := exSearch) (resample := fun _ _ _ => none) exSearch_complete hx ho hfew true
        true (otherSide (exStripData ary) x.1 o)
      exact ⟨v, fun _ => hv⟩
    · exact ⟨fun _ _ _ => 0, fun h' => absurd h' h⟩
  choose us hus using hcall
  have hus' : ∀ x ∈ exStripParts, ∀ o ∈ partSides (exStripNbs x.1), _ :=
    fun x hx o ho => hus x.1 o ⟨x, hx, rfl, ho⟩
  refine ⟨r, opp, u, con, us, H, hu, hus', ?_, ?_⟩
  · refine C120_values H exSearch_near exNoResample hu (hd ary) (x := (8, [2])) (by decide) (o := some 7) (by decide)
      (hus' (8, [2]) (by decide) (some 7) (by decide)) 0 0 3 ?_ _ rfl 1 (by decide)
    refine ⟨0, 2, 2, by decide +kernel, by decide +kernel, 0, 2, rfl, ⟨1, by decide +kernel, by decide, rfl⟩,
      ⟨3, by decide +kernel, by decide, rfl⟩⟩
  · have := C120_conserved H exSearch_near exNoResample hu (hd ary) hus' (hd fun _ _ _ => 1)
      (fun _ _ _ _ _ _ _ => rfl) (h := fun x y => x - y) (fun x y => by ring)
    simpa [exStripParts, partSides, exStripNbs, exStripData] using this

end Meshmode
