import Verif.Connection.Face
import Verif.Connection.Traces
import Verif.Mesh.Commute
import Verif.Mesh.Renumber
import Mathlib.Algebra.BigOperators.Group.Finset.Basic
import Mathlib.Data.ZMod.Basic
import Mathlib.Algebra.CharP.Two

/-!
# The boundary of a volume mesh is closed (C113)

The mesh of the boundary made by `make_face_restriction` (meshmode/discretization/connection/face.py:170-383), and
the facial adjacency computed for it (meshmode/mesh/__init__.py:1762-1901).
-/
namespace Meshmode

variable {N M U A : Type}

/-! ## Model -/

/-- The groups of the boundary mesh, meshmode/discretization/connection/face.py:367-376.  `ref j` is the kind of
boundary group `j` and the reference faces of its shape; all faces of a volume group have the same shape.  Entries
never written to (there are none, see C27) are left out. -/
def bdryMeshGroups (ref : Nat → Nat × List (List Nat)) (r : FaceRestr M U) : List (ElGroup M) :=
  r.groups.zipIdx.map fun p =>
    ⟨(ref p.2).1, (ref p.2).2, (p.1.filterMap id).map fun b => b.vertices.map Int.toNat,
      (p.1.filterMap id).map BdryEl.nodes⟩

/-! ## Specification -/

/-- A ridge: a face of the mesh and the number of one of the faces of this face.
(Specification or proof vocabulary, no code.) -/
abbrev Ridge := FaceId × Nat

/-- Vertices of a ridge; `sub g` are the reference faces of the faces of group `g`.
(Specification or proof vocabulary, no code.) -/
def ridgeVerts (groups : List (ElGroup N)) (sub : Nat → List (List Nat)) (x : Ridge) : Option (List Nat) := do
  let vs ← faceVerts groups x.1
  let ref ← (sub x.1.grp)[x.2]?
  ref.mapM (vs[·]?)

/-- There is such a ridge. (Specification or proof vocabulary, no code.) -/
def IsRidge (groups : List (ElGroup N)) (sub : Nat → List (List Nat)) (x : Ridge) : Prop :=
  IsFace groups x.1 ∧ x.2 < (sub x.1.grp).length

/-- Two ridges have the same vertices. (Specification or proof vocabulary, no code.) -/
def SameRidge (groups : List (ElGroup N)) (sub : Nat → List (List Nat)) (x y : Ridge) : Prop :=
  ∃ vs vs', ridgeVerts groups sub x = some vs ∧ ridgeVerts groups sub y = some vs' ∧ vs.Perm vs'

/-- The faces of the faces of an element form pairs: for each there is exactly one other with the same vertices, on
another face of the element; and matching faces of two elements have the same faces.
(Specification or proof vocabulary, no code.) -/
structure RidgesOK (groups : List (ElGroup N)) (sub : Nat → List (List Nat)) : Prop where
  defined : ∀ x, IsRidge groups sub x → ∃ vs, ridgeVerts groups sub x = some vs
  distinct : ∀ f s s', IsRidge groups sub (f, s) → IsRidge groups sub (f, s') →
    SameRidge groups sub (f, s) (f, s') → s = s'
  within : ∀ x, IsRidge groups sub x → ∃! y, IsRidge groups sub y ∧ y.1.grp = x.1.grp ∧ y.1.el = x.1.el ∧ x ≠ y ∧
    SameRidge groups sub x y
  across : ∀ f f', IsFace groups f → IsFace groups f' → f ≠ f' → SameVertices groups f f' →
    ∀ s, s < (sub f.grp).length → ∃! s', s' < (sub f'.grp).length ∧ SameRidge groups sub (f, s) (f', s')

/-- Reference faces of a simplex with vertices `0, …, m`: for each vertex one face, having the other vertices.
(Specification or proof vocabulary, no code.) -/
structure SimplexTable (m : Nat) (fvi : List (List Nat)) : Prop where
  count : fvi.length = m + 1
  face : ∀ ref ∈ fvi, ref.Nodup ∧ ∃ i, i ≤ m ∧ ∀ k, k ∈ ref ↔ k ≤ m ∧ k ≠ i
  distinct : fvi.Pairwise fun a b => ¬ ∀ k, k ∈ a ↔ k ∈ b

/-! ## Parity -/

theorem even_of_partner {α : Type} (S : Finset α) (R : α → α → Prop) (hs : ∀ a b, R a b → R b a)
    (hirr : ∀ a, ¬ R a a) (h : ∀ a ∈ S, ∃! b, b ∈ S ∧ R a b) : Even S.card := by
  classical
  choose! p hp hu using h
  have h0 : ∑ _a ∈ S, (1 : ZMod 2) = 0 := by
    refine Finset.sum_involution (fun a _ => p a) ?_ ?_ ?_ ?_
    · intro a _; decide
    · intro a ha _ he
      have := (hp a ha).2
      rw [he] at this
      exact hirr a this
    · intro a ha; exact (hp a ha).1
    · intro a ha
      have h1 := hp a ha
      exact (hu (p a) h1.1 a ⟨ha, hs _ _ h1.2⟩).symm
  rw [Finset.sum_const, nsmul_eq_mul, mul_one] at h0
  exact (ZMod.natCast_eq_zero_iff_even).1 h0

section
variable {groups : List (ElGroup N)} {sub : Nat → List (List Nat)}

theorem SameRidge.symm {x y : Ridge} (h : SameRidge groups sub x y) : SameRidge groups sub y x := by
  obtain ⟨a, b, h1, h2, h3⟩ := h
  exact ⟨b, a, h2, h1, h3.symm⟩

theorem SameRidge.trans {x y z : Ridge} (h : SameRidge groups sub x y) (h' : SameRidge groups sub y z) :
    SameRidge groups sub x z := by
  obtain ⟨a, b, h1, h2, h3⟩ := h
  obtain ⟨b', c, h4, h5, h6⟩ := h'
  rw [h2] at h4
  obtain rfl := Option.some.inj h4
  exact ⟨a, c, h1, h5, h3.trans h6⟩

theorem SameVertices.symm' {f f' : FaceId} (h : SameVertices groups f f') : SameVertices groups f' f := by
  obtain ⟨a, b, h1, h2, h3⟩ := h
  exact ⟨b, a, h2, h1, h3.symm⟩

/-- All ridges of a mesh. (Specification or proof vocabulary, no code.) -/
noncomputable def allRidges (groups : List (ElGroup N)) (sub : Nat → List (List Nat)) : Finset Ridge := by
  classical
  exact ((allFaceIds groups).flatMap fun f => (List.range (sub f.grp).length).map fun s => (f, s)).toFinset

theorem mem_allRidges {x : Ridge} : x ∈ allRidges groups sub ↔ IsRidge groups sub x := by
  classical
  obtain ⟨f, s⟩ := x
  simp only [allRidges, List.mem_toFinset, List.mem_flatMap, List.mem_map, List.mem_range, mem_allFaceIds, IsRidge,
    Prod.mk.injEq]
  constructor
  · rintro ⟨f', h1, s', h2, rfl, rfl⟩; exact ⟨h1, h2⟩
  · rintro ⟨h1, h2⟩; exact ⟨f, h1, s, h2, rfl, rfl⟩

open Classical in
/-- C113: at each ridge the number of boundary faces is even (counting pairs of a boundary face and a number of one of
its faces that has the vertices of the ridge). -/
theorem C113_even (hok : RidgesOK groups sub) (htwo : AtMostTwoSides groups) (x : Ridge) :
    Even ((allRidges groups sub).filter fun y => SameRidge groups sub x y ∧ IsBoundaryFace groups y.1).card := by
  have h1 : Even ((allRidges groups sub).filter fun y => SameRidge groups sub x y).card := by
    refine even_of_partner _ (fun y z => y.1.grp = z.1.grp ∧ y.1.el = z.1.el ∧ y ≠ z ∧ SameRidge groups sub y z) ?_ ?_ ?_
    · rintro a b ⟨h1, h2, h3, h4⟩; exact ⟨h1.symm, h2.symm, h3.symm, h4.symm⟩
    · rintro a ⟨_, _, h, _⟩; exact h rfl
    · intro y hy
      rw [Finset.mem_filter, mem_allRidges] at hy
      obtain ⟨z, ⟨z1, z2, z3, z4, z5⟩, hz⟩ := hok.within y hy.1
      refine ⟨z, ⟨?_, z2.symm, z3.symm, z4, z5⟩, ?_⟩
      · rw [Finset.mem_filter, mem_allRidges]; exact ⟨z1, hy.2.trans z5⟩
      · rintro w ⟨hw, w1, w2, w3, w4⟩
        rw [Finset.mem_filter, mem_allRidges] at hw
        exact hz w ⟨hw.1, w1.symm, w2.symm, w3, w4⟩
  have h2 : Even ((allRidges groups sub).filter fun y => SameRidge groups sub x y ∧ ¬ IsBoundaryFace groups y.1).card := by
    refine even_of_partner _ (fun y z => y.1 ≠ z.1 ∧ SameVertices groups y.1 z.1 ∧ SameRidge groups sub y z) ?_ ?_ ?_
    · rintro a b ⟨h1, h2, h3⟩; exact ⟨h1.symm, h2.symm', h3.symm⟩
    · rintro a ⟨h, _⟩; exact h rfl
    · rintro ⟨f, s⟩ hy
      rw [Finset.mem_filter, mem_allRidges] at hy
      obtain ⟨hy1, hy2, hy3⟩ := hy
      obtain ⟨f', hf', hne, hsv⟩ : ∃ f', IsFace groups f' ∧ f' ≠ f ∧ SameVertices groups f f' := by
        by_contra hcon
        exact hy3 ⟨hy1.1, fun f' a b c => hcon ⟨f', a, b, c⟩⟩
      obtain ⟨s', ⟨hs', hr⟩, hu⟩ := hok.across f f' hy1.1 hf' hne.symm hsv s hy1.2
      refine ⟨(f', s'), ⟨?_, hne.symm, hsv, hr⟩, ?_⟩
      · rw [Finset.mem_filter, mem_allRidges]
        exact ⟨⟨hf', hs'⟩, hy2.trans hr, fun hb => hb.2 f hy1.1 hne.symm hsv.symm'⟩
      · rintro ⟨g, t⟩ ⟨hw, w1, w2, w3⟩
        rw [Finset.mem_filter, mem_allRidges] at hw
        obtain rfl : f' = g := htwo f f' g hy1.1 hf' hw.1.1 hsv w2 hne.symm w1
        rw [hu t ⟨hw.1.2, w3⟩]
  have h3 := Finset.card_filter_add_card_filter_not (s := (allRidges groups sub).filter fun y => SameRidge groups sub x y)
    (fun y => IsBoundaryFace groups y.1)
  rw [Finset.filter_filter, Finset.filter_filter] at h3
  rw [← h3] at h1
  exact (Nat.even_add.1 h1).2 h2

/-- At a ridge of a boundary face there is another boundary face. -/
theorem other_boundary_face (hok : RidgesOK groups sub) (htwo : AtMostTwoSides groups) {f : FaceId} {s : Nat}
    (hf : IsBoundaryFace groups f) (hs : s < (sub f.grp).length) :
    ∃ f' s', IsBoundaryFace groups f' ∧ s' < (sub f'.grp).length ∧ f' ≠ f ∧ SameRidge groups sub (f, s) (f', s') := by
  classical
  have he := C113_even hok htwo (f, s)
  obtain ⟨vs, hvs⟩ := hok.defined (f, s) ⟨hf.1, hs⟩
  have hmem : (f, s) ∈ (allRidges groups sub).filter fun y => SameRidge groups sub (f, s) y ∧ IsBoundaryFace groups y.1 := by
    rw [Finset.mem_filter, mem_allRidges]
    exact ⟨⟨hf.1, hs⟩, ⟨vs, vs, hvs, hvs, List.Perm.refl _⟩, hf⟩
  have hc : 1 < ((allRidges groups sub).filter fun y =>
      SameRidge groups sub (f, s) y ∧ IsBoundaryFace groups y.1).card := by
    have hpos := Finset.card_pos.2 ⟨_, hmem⟩
    obtain ⟨k, hk⟩ := he
    omega
  obtain ⟨⟨f', s'⟩, hy, hne⟩ := Finset.exists_mem_ne hc (f, s)
  rw [Finset.mem_filter, mem_allRidges] at hy
  refine ⟨f', s', hy.2.2, hy.1.2, ?_, hy.2.1⟩
  rintro rfl
  exact hne (by rw [hok.distinct f' s s' ⟨hf.1, hs⟩ hy.1 hy.2.1])

end

/-! ## The boundary mesh -/

/-- Boundary element `n` of boundary group `j` is made from face `F` of the volume mesh.
(Specification or proof vocabulary, no code.) -/
def Origin (perFace : Bool) (sel : FaceSel) (groups : List (ElGroup N)) (fags : List (List (Fag A))) (j n : Nat)
    (F : FaceId) : Prop :=
  ∃ grp fg, groups[F.grp]? = some grp ∧ fags[F.grp]? = some fg ∧ F.face < grp.nfaces ∧
    j = bdryGroupNr perFace (groups.map ElGroup.nfaces) F.grp F.face ∧
    (origins perFace grp.nfaces (groupFaces sel grp.nelements grp.nfaces fg) F.face)[n]? = some ⟨F.el, F.face⟩

section
variable {perFace : Bool} {sel : FaceSel} {groups : List (ElGroup N)} {fags : List (List (Fag A))}

theorem bdry_origin_unique {j n : Nat} {F F' : FaceId} (h : Origin perFace sel groups fags j n F)
    (h' : Origin perFace sel groups fags j n F') : F = F' := by
  obtain ⟨g, e, f⟩ := F
  obtain ⟨g', e', f'⟩ := F'
  obtain ⟨grp, fg, h1, h2, h3, h4, h5⟩ := h
  obtain ⟨grp', fg', h1', h2', h3', h4', h5'⟩ := h'
  simp only at *
  cases perFace with
  | false =>
    simp only [bdryGroupNr, Bool.false_eq_true, if_false, origins] at *
    obtain rfl : g = g' := by omega
    rw [h1] at h1'; rw [h2] at h2'
    obtain rfl := Option.some.inj h1'
    obtain rfl := Option.some.inj h2'
    rw [h5] at h5'
    simp only [Option.some.injEq, ElFace.mk.injEq] at h5'
    rw [h5'.1, h5'.2]
  | true =>
    simp only [bdryGroupNr, if_true, origins] at *
    have hn : (groups.map ElGroup.nfaces)[g]? = some grp.nfaces := by simp [h1]
    have hn' : (groups.map ElGroup.nfaces)[g']? = some grp'.nfaces := by simp [h1']
    obtain ⟨rfl, rfl⟩ := (C01_numbering_bijective (groups.map ElGroup.nfaces) j).2 g f g' f'
      ⟨_, hn, h3, h4⟩ ⟨_, hn', h3', h4'⟩
    rw [h1] at h1'; rw [h2] at h2'
    obtain rfl := Option.some.inj h1'
    obtain rfl := Option.some.inj h2'
    rw [h5] at h5'
    simp only [Option.some.injEq, ElFace.mk.injEq] at h5'
    rw [h5'.1]

theorem origin_of_requested {F : FaceId} {grp : ElGroup N} {fg : List (Fag A)} (hg : groups[F.grp]? = some grp)
    (hfg : fags[F.grp]? = some fg) (hf : F.face < grp.nfaces)
    (hreq : ⟨F.el, F.face⟩ ∈ groupFaces sel grp.nelements grp.nfaces fg) :
    ∃ n, Origin perFace sel groups fags (bdryGroupNr perFace (groups.map ElGroup.nfaces) F.grp F.face) n F := by
  obtain ⟨n, hn⟩ := mem_origins (perFace := perFace) hf hreq
  exact ⟨n, grp, fg, hg, hfg, hf, rfl, hn⟩

theorem filterMap_id_some {α β : Type} {φ : α → Option β} {l : List α} (h : ∀ a ∈ l, ∃ b, φ a = some b) :
    ((l.map φ).filterMap id).length = l.length ∧ ∀ n : Nat, ((l.map φ).filterMap id)[n]? = l[n]?.bind φ := by
  induction l with
  | nil => simp
  | cons a l ih =>
    obtain ⟨b, hb⟩ := h a List.mem_cons_self
    obtain ⟨h1, h2⟩ := ih fun x hx => h x (List.mem_cons_of_mem _ hx)
    have hc : ((a :: l).map φ).filterMap id = b :: (l.map φ).filterMap id := by simp [hb]
    rw [hc]
    refine ⟨by simp only [List.length_cons, h1], fun n => ?_⟩
    cases n with
    | zero => simp [hb]
    | succ n => simpa using h2 n

theorem faceVertexNrs_nodup (sel : FaceSel) (nv : Nat) (groups : List (ElGroup N)) (fags : List (List (Fag A))) :
    (faceVertexNrs sel nv groups fags).Nodup := by
  cases sel with
  | interior => exact List.nodup_range
  | all => exact List.nodup_range
  | tag t => exact nodup_npUnique _

theorem restr_vertices {un : Nat → Nat → U} {res : Nat → Nat → N → M} {nv : Nat} {r : FaceRestr M U}
    (h : makeFaceRestriction perFace un res sel nv groups fags = some r) :
    r.vertices = faceVertexNrs sel nv groups fags := by
  unfold makeFaceRestriction at h
  simp only [Option.ite_none_left_eq_some, Option.some.injEq] at h
  obtain ⟨_, rfl⟩ := h
  rfl

/-- What is assumed of the restriction. (Specification or proof vocabulary, no code.) -/
structure RestrOK (perFace : Bool) (un : Nat → Nat → U) (res : Nat → Nat → N → M) (sel : FaceSel) (nv : Nat)
    (groups : List (ElGroup N)) (fags : List (List (Fag A))) (sub : Nat → List (List Nat))
    (ref : Nat → Nat × List (List Nat)) (r : FaceRestr M U) : Prop where
  made : makeFaceRestriction perFace un res sel nv groups fags = some r
  length : groups.length = fags.length
  faces : ∀ g ∈ groups, 0 < g.nfaces
  wf : ∀ g ∈ groups, g.WF
  bound : ∀ g ∈ groups, ∀ row ∈ g.vertexIndices, ∀ v ∈ row, v < nv
  req : ∀ (g : Nat) grp fg, groups[g]? = some grp → fags[g]? = some fg →
    ∀ ef ∈ groupFaces sel grp.nelements grp.nfaces fg, ef.face < grp.nfaces ∧ ef.el < grp.nelements
  shape : ∀ (g f : Nat) grp, groups[g]? = some grp → f < grp.nfaces →
    (ref (bdryGroupNr perFace (groups.map ElGroup.nfaces) g f)).2 = sub g

section
variable {un : Nat → Nat → U} {res : Nat → Nat → N → M} {nv : Nat} {sub : Nat → List (List Nat)}
  {ref : Nat → Nat × List (List Nat)} {r : FaceRestr M U}

theorem mem_of_origins {nf f : Nat} {faces : List ElFace} {ef : ElFace} (h : ef ∈ origins perFace nf faces f) :
    ef ∈ faces := by
  unfold origins byFace at h
  cases perFace with
  | true => exact (List.mem_filter.1 h).1
  | false =>
    simp only [Bool.false_eq_true, if_false, List.mem_flatMap] at h
    obtain ⟨_, _, h⟩ := h
    exact (List.mem_filter.1 h).1

theorem bdry_group (H : RestrOK perFace un res sel nv groups fags sub ref r) {g f : Nat} {grp : ElGroup N}
    {fg : List (Fag A)} (hg : groups[g]? = some grp) (hfg : fags[g]? = some fg) (hf : f < grp.nfaces) :
    ∃ bg, (bdryMeshGroups ref r)[bdryGroupNr perFace (groups.map ElGroup.nfaces) g f]? = some bg ∧ bg.fvi = sub g ∧
      bg.nelements = (origins perFace grp.nfaces (groupFaces sel grp.nelements grp.nfaces fg) f).length ∧
      bg.vertexIndices.length = bg.nodes.length ∧
      ∀ n : Nat, bg.vertexIndices[n]? =
        (origins perFace grp.nfaces (groupFaces sel grp.nelements grp.nfaces fg) f)[n]?.bind fun ef =>
          (bdryEl (res g) r.vertices grp ef.face ef.el).map fun b => b.vertices.map Int.toNat := by
  have hreq := H.req g grp fg hg hfg
  obtain ⟨h1, _⟩ := C27_elements H.made H.length (fun _ => H.faces) hg hfg hf fun ef hef => (hreq ef hef).1
  have hmg := List.mem_of_getElem? hg
  have hsome : ∀ ef ∈ origins perFace grp.nfaces (groupFaces sel grp.nelements grp.nfaces fg) f,
      ∃ b, bdryEl (res g) r.vertices grp ef.face ef.el = some b := by
    rintro ⟨el, f'⟩ hef
    have hm := mem_of_origins hef
    obtain ⟨b, _, _, _, _, _, _, hb, _⟩ := C27_vertices H.made hg hfg (H.wf _ hmg) (H.bound _ hmg) hm (hreq _ hm).2
      (hreq _ hm).1
    exact ⟨b, hb⟩
  obtain ⟨k1, k2⟩ := filterMap_id_some hsome
  have hB := congrArg (Option.map fun l : List (Option (BdryEl M)) => (⟨
    (ref (bdryGroupNr perFace (groups.map ElGroup.nfaces) g f)).1,
    (ref (bdryGroupNr perFace (groups.map ElGroup.nfaces) g f)).2,
    (l.filterMap id).map fun b => b.vertices.map Int.toNat, (l.filterMap id).map BdryEl.nodes⟩ : ElGroup M)) h1
  rw [Option.map_some] at hB
  have hB' := (show (bdryMeshGroups ref r)[bdryGroupNr perFace (groups.map ElGroup.nfaces) g f]? = Option.map _ _ by
    unfold bdryMeshGroups
    rw [List.getElem?_map, List.getElem?_zipIdx, Option.map_map]
    simp only [Nat.zero_add]
    rfl).trans hB
  refine ⟨_, hB', ?_, ?_, ?_, ?_⟩
  · exact H.shape g f grp hg hf
  · simp only [ElGroup.nelements, List.length_map]
    exact k1
  · simp only [List.length_map]
  · intro n
    simp only [List.getElem?_map]
    rw [k2]
    cases (origins perFace grp.nfaces (groupFaces sel grp.nelements grp.nfaces fg) f)[n]? <;> rfl

/-- The vertex row of a boundary element is that of its face, renumbered. -/
theorem bdry_row (H : RestrOK perFace un res sel nv groups fags sub ref r) {j n : Nat} {F : FaceId}
    (ho : Origin perFace sel groups fags j n F) :
    ∃ bg vs, (bdryMeshGroups ref r)[j]? = some bg ∧ bg.fvi = sub F.grp ∧ faceVerts groups F = some vs ∧
      (∀ v ∈ vs, v ∈ r.vertices) ∧ bg.vertexIndices[n]? = some (vs.map r.vertices.idxOf) := by
  obtain ⟨g, el, f⟩ := F
  obtain ⟨grp, fg, hg, hfg, hf, rfl, hn⟩ := ho
  simp only at hg hfg hf hn ⊢
  obtain ⟨bg, b1, b2, b3, b4, b5⟩ := bdry_group H hg hfg hf
  have hmg := List.mem_of_getElem? hg
  have hm := mem_of_origins (List.mem_of_getElem? hn)
  have hq := H.req g grp fg hg hfg _ hm
  obtain ⟨b, row, ref0, nd, e1, e2, e3, e4, e5, e6, e7⟩ :=
    C27_vertices H.made hg hfg (H.wf _ hmg) (H.bound _ hmg) hm hq.2 hq.1
  obtain ⟨vs, hvs⟩ : ∃ vs, faceVerts groups ⟨g, el, f⟩ = some vs := faceVerts_isSome H.wf ⟨grp, hg, hq.1, hq.2⟩
  obtain ⟨grp', ref', row', c1, c2, c3, c4, c5⟩ := (C02_face_vertices groups ⟨g, el, f⟩ vs).1 hvs
  simp only at c1 c2 c3
  rw [hg] at c1; obtain rfl := Option.some.inj c1
  rw [e2] at c2; obtain rfl := Option.some.inj c2
  rw [e1] at c3; obtain rfl := Option.some.inj c3
  have hnd : r.vertices.Nodup := by rw [restr_vertices H.made]; exact faceVertexNrs_nodup _ _ _ _
  have hrow : b.vertices.map Int.toNat = vs.map r.vertices.idxOf := by
    apply List.ext_getElem?
    intro k
    rw [List.getElem?_map, List.getElem?_map]
    by_cases hk : k < ref0.length
    · obtain ⟨m, v, m1, m2, m3⟩ := e7 k _ (List.getElem?_eq_getElem hk)
      have hv := (c5 k _ (List.getElem?_eq_getElem hk)).1
      rw [m1, hv, m2]
      simp only [Option.map_some, Int.toNat_natCast, Option.some.injEq]
      obtain ⟨hlt, rfl⟩ := List.getElem?_eq_some_iff.1 m3
      exact (hnd.idxOf_getElem m hlt).symm
    · rw [List.getElem?_eq_none (by omega), List.getElem?_eq_none (by omega)]
      rfl
  have hrB : bg.vertexIndices[n]? = some (vs.map r.vertices.idxOf) := by
    rw [b5, hn]
    simp only [Option.bind_some, e4, Option.map_some, hrow]
  refine ⟨bg, vs, b1, b2, hvs, ?_, hrB⟩
  intro v hv
  obtain ⟨k, hk, rfl⟩ := List.mem_iff_getElem.1 hv
  have hk' : k < ref0.length := by omega
  obtain ⟨m, v, m1, m2, m3⟩ := e7 k _ (List.getElem?_eq_getElem hk')
  have hv := (c5 k _ (List.getElem?_eq_getElem hk')).1
  rw [m2, List.getElem?_eq_getElem hk] at hv
  rw [Option.some.inj hv]
  exact List.mem_of_getElem? m3

theorem bdry_faceVerts (H : RestrOK perFace un res sel nv groups fags sub ref r) {j n : Nat} {F : FaceId}
    (ho : Origin perFace sel groups fags j n F) (s : Nat) :
    faceVerts (bdryMeshGroups ref r) ⟨j, n, s⟩ =
      (ridgeVerts groups sub (F, s)).map fun us => us.map r.vertices.idxOf := by
  obtain ⟨bg, vs, b1, b2, hvs, _, hrB⟩ := bdry_row H ho
  unfold faceVerts ridgeVerts
  simp only [b1, b2, hvs, hrB, Option.bind_eq_bind, Option.bind_some]
  cases (sub F.grp)[s]? with
  | none => rfl
  | some rf =>
    simp only [Option.bind_some]
    rw [← mapM_map_option]
    simp only [List.getElem?_map]

theorem ridgeVerts_mem (H : RestrOK perFace un res sel nv groups fags sub ref r) {j n s : Nat} {F : FaceId}
    (ho : Origin perFace sel groups fags j n F) {us : List Nat} (hus : ridgeVerts groups sub (F, s) = some us) :
    ∀ u ∈ us, u ∈ r.vertices := by
  obtain ⟨bg, vs, b1, b2, hvs, hin, hrB⟩ := bdry_row H ho
  unfold ridgeVerts at hus
  simp only [hvs, Option.bind_eq_bind, Option.bind_some] at hus
  obtain ⟨rf, _, h⟩ := Option.bind_eq_some_iff.1 hus
  exact fun u hu => hin u ((mem_of_mapM_getElem? h).2 u hu)

theorem exists_origin (H : RestrOK perFace un res sel nv groups fags sub ref r) {b : FaceId}
    (hb : IsFace (bdryMeshGroups ref r) b) :
    ∃ F, Origin perFace sel groups fags b.grp b.el F ∧ b.face < (sub F.grp).length := by
  obtain ⟨j, n, s⟩ := b
  obtain ⟨bg, h1, h2, h3⟩ := hb
  simp only at h1 h2 h3 ⊢
  obtain ⟨hc, _⟩ := C27_group_count H.made H.length fun _ => H.faces
  have hj : j < r.groups.length := by
    have := (List.getElem?_eq_some_iff.1 h1).1
    simpa [bdryMeshGroups] using this
  obtain ⟨g, f, grp, hg, hf, hjj⟩ : ∃ g f grp, groups[g]? = some grp ∧ f < grp.nfaces ∧
      j = bdryGroupNr perFace (groups.map ElGroup.nfaces) g f := by
    rw [hc] at hj
    cases perFace with
    | false =>
      simp only [Bool.false_eq_true, if_false] at hj
      exact ⟨j, 0, _, List.getElem?_eq_getElem hj, H.faces _ (List.getElem_mem hj), by simp [bdryGroupNr]⟩
    | true =>
      simp only [if_true] at hj
      obtain ⟨g, i, hg, hi, he⟩ := exists_group_of_lt _ _ hj
      have hg' : g < groups.length := by simpa using hg
      refine ⟨g, i, _, List.getElem?_eq_getElem hg', by simpa using hi, by simp [bdryGroupNr, he]⟩
  subst hjj
  obtain ⟨fg, hfg⟩ : ∃ fg, fags[g]? = some fg :=
    ⟨_, List.getElem?_eq_getElem (by rw [← H.length]; exact (List.getElem?_eq_some_iff.1 hg).1)⟩
  obtain ⟨bg', b1, b2, b3, b4, b5⟩ := bdry_group H hg hfg hf
  rw [h1] at b1
  obtain rfl := Option.some.inj b1
  rw [b3] at h3
  obtain ⟨⟨el, f'⟩, hef⟩ : ∃ ef, (origins perFace grp.nfaces (groupFaces sel grp.nelements grp.nfaces fg) f)[n]? = some ef :=
    ⟨_, List.getElem?_eq_getElem h3⟩
  have hm := mem_of_origins (List.mem_of_getElem? hef)
  have hq := H.req g grp fg hg hfg _ hm
  refine ⟨⟨g, el, f'⟩, ⟨grp, fg, hg, hfg, hq.1, ?_, ?_⟩, ?_⟩
  · cases perFace with
    | false => simp [bdryGroupNr]
    | true =>
      simp only [origins, if_true] at hef
      have : f' = f := by simpa using (List.mem_filter.1 (List.mem_of_getElem? hef)).2
      rw [this]
  · cases perFace with
    | false => simpa [origins] using hef
    | true =>
      simp only [origins, if_true] at hef ⊢
      have : f' = f := by simpa using (List.mem_filter.1 (List.mem_of_getElem? hef)).2
      rw [this] at hef ⊢
      exact hef
  · show s < (sub g).length
    rw [← b2]
    exact h2

theorem origin_isFace (H : RestrOK perFace un res sel nv groups fags sub ref r) {j n s : Nat} {F : FaceId}
    (ho : Origin perFace sel groups fags j n F) (hs : s < (sub F.grp).length) :
    IsFace (bdryMeshGroups ref r) ⟨j, n, s⟩ := by
  obtain ⟨grp, fg, hg, hfg, hf, rfl, hn⟩ := ho
  obtain ⟨bg, b1, b2, b3, _⟩ := bdry_group H hg hfg hf
  refine ⟨bg, b1, ?_, ?_⟩
  · show s < bg.fvi.length
    rw [b2]; exact hs
  · show n < bg.nelements
    rw [b3]; exact (List.getElem?_eq_some_iff.1 hn).1

/-- The groups of the boundary mesh are well formed. -/
theorem bdry_wf (H : RestrOK perFace un res sel nv groups fags sub ref r) (hok : RidgesOK groups sub) :
    ∀ g ∈ bdryMeshGroups ref r, g.WF := by
  intro bg hbg
  obtain ⟨j, hj⟩ := List.mem_iff_getElem?.1 hbg
  have hlen : bg.vertexIndices.length = bg.nodes.length := by
    unfold bdryMeshGroups at hj
    rw [List.getElem?_map] at hj
    obtain ⟨p, _, rfl⟩ := Option.map_eq_some_iff.1 hj
    simp
  refine ⟨hlen, ?_⟩
  intro row hrow rf hrf k hk
  obtain ⟨n, hn⟩ := List.mem_iff_getElem?.1 hrow
  obtain ⟨s, hs⟩ := List.mem_iff_getElem?.1 hrf
  have hface : IsFace (bdryMeshGroups ref r) ⟨j, n, s⟩ := by
    refine ⟨bg, hj, (List.getElem?_eq_some_iff.1 hs).1, ?_⟩
    show n < bg.nodes.length
    rw [← hlen]; exact (List.getElem?_eq_some_iff.1 hn).1
  obtain ⟨F, ho, hsl⟩ := exists_origin H hface
  have hF : IsFace groups F := by
    obtain ⟨grp, fg, hg, hfg, hf, _, hn'⟩ := ho
    exact ⟨grp, hg, hf, (H.req _ grp fg hg hfg _ (mem_of_origins (List.mem_of_getElem? hn'))).2⟩
  obtain ⟨us, hus⟩ := hok.defined (F, s) ⟨hF, hsl⟩
  have hfv := bdry_faceVerts H ho s
  simp only at hfv
  rw [hus, Option.map_some] at hfv
  obtain ⟨bg', rf', row', c1, c2, c3, c4, c5⟩ := (C02_face_vertices _ _ _).1 hfv
  simp only at c1 c2 c3
  rw [hj] at c1; obtain rfl := Option.some.inj c1
  rw [hs] at c2; obtain rfl := Option.some.inj c2
  rw [hn] at c3; obtain rfl := Option.some.inj c3
  obtain ⟨i, hi⟩ := List.mem_iff_getElem?.1 hk
  exact (c5 i k hi).2

theorem sameVertices_of_sameRidge (H : RestrOK perFace un res sel nv groups fags sub ref r) {j n s j' n' s' : Nat}
    {F F' : FaceId} (ho : Origin perFace sel groups fags j n F) (ho' : Origin perFace sel groups fags j' n' F')
    (h : SameRidge groups sub (F, s) (F', s')) :
    SameVertices (bdryMeshGroups ref r) ⟨j, n, s⟩ ⟨j', n', s'⟩ := by
  obtain ⟨us, us', h1, h2, h3⟩ := h
  refine ⟨_, _, ?_, ?_, h3.map r.vertices.idxOf⟩
  · rw [bdry_faceVerts H ho, h1]; rfl
  · rw [bdry_faceVerts H ho', h2]; rfl

/-- C113: if the tag stands for the faces without neighbor, no face of the boundary mesh lies on its boundary: each
has the same vertices as another one. -/
theorem C113_no_boundary {t : BTag} (H : RestrOK perFace un res (.tag t) nv groups fags sub ref r)
    (hok : RidgesOK groups sub) (htwo : AtMostTwoSides groups)
    (ht : ∀ F, InBoundary fags t F ↔ IsBoundaryFace groups F) (b : FaceId) :
    ¬ IsBoundaryFace (bdryMeshGroups ref r) b := by
  rintro ⟨hb, hno⟩
  obtain ⟨F, ho, hs⟩ := exists_origin H hb
  have hF : IsBoundaryFace groups F := by
    rw [← ht]
    obtain ⟨grp, fg, hg, hfg, hf, _, hn⟩ := ho
    exact (mem_groupFaces_tag hfg _ _ _ _ _).1 (mem_of_origins (List.mem_of_getElem? hn))
  obtain ⟨F', s', hF', hs', hne, hsame⟩ := other_boundary_face hok htwo hF hs
  obtain ⟨grp', hg', hf', hel'⟩ := hF'.1
  obtain ⟨fg', hfg'⟩ : ∃ fg, fags[F'.grp]? = some fg :=
    ⟨_, List.getElem?_eq_getElem (by rw [← H.length]; exact (List.getElem?_eq_some_iff.1 hg').1)⟩
  obtain ⟨n', ho'⟩ := origin_of_requested (perFace := perFace) (sel := .tag t) hg' hfg' hf'
    ((mem_groupFaces_tag hfg' _ _ _ _ _).2 ((ht F').2 hF'))
  refine hno _ (origin_isFace H ho' hs') ?_ (sameVertices_of_sameRidge H ho ho' hsame)
  intro he
  have h1 := congrArg FaceId.grp he
  have h2 := congrArg FaceId.el he
  simp only at h1 h2
  rw [h1, h2] at ho'
  exact hne (bdry_origin_unique ho' ho)

end

end

/-! ## Simplices -/

/-- Vertices at the places of a reference face. (Specification or proof vocabulary, no code.) -/
def tableVerts (T : List (List Nat)) (vs : List Nat) (s : Nat) : Option (List Nat) :=
  T[s]?.bind fun rf => rf.mapM (vs[·]?)

theorem tableVerts_some {m : Nat} {T : List (List Nat)} {vs : List Nat} (hT : SimplexTable m T)
    (hl : vs.length = m + 1) (hnd : vs.Nodup) {s : Nat} (hs : s < T.length) :
    ∃ ws i, tableVerts T vs s = some ws ∧ ∃ hi : i < vs.length, (∀ k, k ∈ T[s] ↔ k ≤ m ∧ k ≠ i) ∧
      ws.Nodup ∧ ∀ w, w ∈ ws ↔ w ∈ vs ∧ w ≠ vs[i] := by
  obtain ⟨hrn, i, hi, hk⟩ := hT.face _ (List.getElem_mem hs)
  have hlt : ∀ k ∈ T[s], k < vs.length := fun k hk' => by have := (hk k).1 hk'; omega
  refine ⟨T[s].map fun k => vs.getD k 0, i, ?_, by omega, hk, ?_, ?_⟩
  · unfold tableVerts
    rw [List.getElem?_eq_getElem hs, Option.bind_some, mapM_row hlt]
  · rw [List.nodup_map_iff_inj_on hrn]
    intro a ha b hb hab
    rw [List.getD_eq_getElem?_getD, List.getD_eq_getElem?_getD, List.getElem?_eq_getElem (hlt a ha),
      List.getElem?_eq_getElem (hlt b hb)] at hab
    exact (hnd.getElem_inj_iff).1 hab
  · intro w
    rw [List.mem_map]
    constructor
    · rintro ⟨k, hk', rfl⟩
      rw [List.getD_eq_getElem?_getD, List.getElem?_eq_getElem (hlt k hk'), Option.getD_some]
      refine ⟨List.getElem_mem _, fun he => ?_⟩
      exact ((hk k).1 hk').2 ((hnd.getElem_inj_iff).1 he)
    · rintro ⟨hw, hne⟩
      obtain ⟨k, hkl, rfl⟩ := List.mem_iff_getElem.1 hw
      refine ⟨k, (hk k).2 ⟨by omega, fun he => hne (by subst he; rfl)⟩, ?_⟩
      rw [List.getD_eq_getElem?_getD, List.getElem?_eq_getElem hkl, Option.getD_some]

/-- The faces of a simplex omit one vertex each, and each vertex is omitted by exactly one. -/
theorem tableVerts_simplex {m : Nat} {T : List (List Nat)} {vs : List Nat} (hT : SimplexTable m T)
    (hl : vs.length = m + 1) (hnd : vs.Nodup) :
    (∀ s, s < T.length → ∃ ws v, tableVerts T vs s = some ws ∧ v ∈ vs ∧ ws.Nodup ∧ ∀ w, w ∈ ws ↔ w ∈ vs ∧ w ≠ v) ∧
    (∀ v ∈ vs, ∃ s ws, s < T.length ∧ tableVerts T vs s = some ws ∧ ws.Nodup ∧ ∀ w, w ∈ ws ↔ w ∈ vs ∧ w ≠ v) ∧
    (∀ s s' ws ws', s < T.length → s' < T.length → tableVerts T vs s = some ws → tableVerts T vs s' = some ws' →
      (∀ w, w ∈ ws ↔ w ∈ ws') → s = s') := by
  have h3 : ∀ s s' ws ws', s < T.length → s' < T.length → tableVerts T vs s = some ws →
      tableVerts T vs s' = some ws' → (∀ w, w ∈ ws ↔ w ∈ ws') → s = s' := by
    intro s s' ws ws' hs hs' hw hw' hsame
    obtain ⟨us, i, h1, hi, h2, _, h4⟩ := tableVerts_some hT hl hnd hs
    obtain ⟨us', i', h1', hi', h2', _, h4'⟩ := tableVerts_some hT hl hnd hs'
    rw [hw] at h1; obtain rfl := Option.some.inj h1
    rw [hw'] at h1'; obtain rfl := Option.some.inj h1'
    have hii : i = i' := by
      by_contra hne
      have ha : vs[i'] ∈ ws := (h4 _).2 ⟨List.getElem_mem _, fun he => hne ((hnd.getElem_inj_iff).1 he).symm⟩
      exact ((h4' _).1 ((hsame _).1 ha)).2 rfl
    by_contra hne
    subst hii
    have hmem : ∀ k, k ∈ T[s] ↔ k ∈ T[s'] := fun k => by rw [h2, h2']
    rcases Nat.lt_or_gt_of_ne hne with hlt | hlt
    · exact (List.pairwise_iff_getElem.1 hT.distinct s s' hs hs' hlt) hmem
    · exact (List.pairwise_iff_getElem.1 hT.distinct s' s hs' hs hlt) fun k => (hmem k).symm
  refine ⟨?_, ?_, h3⟩
  · intro s hs
    obtain ⟨ws, i, h1, hi, _, h2, h4⟩ := tableVerts_some hT hl hnd hs
    exact ⟨ws, _, h1, List.getElem_mem hi, h2, h4⟩
  · have hc := hT.count
    have hex : ∀ s : Fin (m + 1), ∃ i : Fin (m + 1), ∃ ws, tableVerts T vs s = some ws ∧ ws.Nodup ∧
        ∀ w, w ∈ ws ↔ w ∈ vs ∧ w ≠ vs[i] := by
      intro s
      obtain ⟨ws, i, h1, hi, _, h2, h4⟩ := tableVerts_some hT hl hnd (s := s) (by omega)
      exact ⟨⟨i, by omega⟩, ws, h1, h2, h4⟩
    choose o ho using hex
    have hinj : Function.Injective o := by
      intro a b hab
      obtain ⟨ws, h1, _, h2⟩ := ho a
      obtain ⟨ws', h1', _, h2'⟩ := ho b
      apply Fin.ext
      refine h3 a b ws ws' (by omega) (by omega) h1 h1' fun w => ?_
      rw [h2, h2', hab]
    have hsurj := Finite.injective_iff_surjective.1 hinj
    intro v hv
    obtain ⟨k, hk, rfl⟩ := List.mem_iff_getElem.1 hv
    obtain ⟨s, hs⟩ := hsurj ⟨k, by omega⟩
    obtain ⟨ws, h1, h2, h4⟩ := ho s
    refine ⟨s, ws, by omega, h1, h2, ?_⟩
    intro w
    rw [h4, hs]
    rfl

/-- A mesh of simplices without repeated vertices, `sub g` being the reference faces of the faces of group `g`.
(Specification or proof vocabulary, no code.) -/
structure SimplicialTables (groups : List (ElGroup N)) (sub : Nat → List (List Nat)) : Prop where
  wf : ∀ g ∈ groups, g.WF
  table : ∀ (g : Nat) grp, groups[g]? = some grp → ∃ n, SimplexTable (n + 1) grp.fvi ∧ SimplexTable n (sub g) ∧
    ∀ row ∈ grp.vertexIndices, row.length = n + 2 ∧ row.Nodup

theorem faceVerts_table {groups : List (ElGroup N)} {g el : Nat} {grp : ElGroup N} {row : List Nat}
    (hg : groups[g]? = some grp) (hrow : grp.vertexIndices[el]? = some row) (f : Nat) :
    faceVerts groups ⟨g, el, f⟩ = tableVerts grp.fvi row f := by
  unfold faceVerts tableVerts
  simp only [hg, hrow, Option.bind_eq_bind, Option.bind_some]

theorem ridgeVerts_table {groups : List (ElGroup N)} {sub : Nat → List (List Nat)} {f : FaceId} {vs : List Nat}
    (h : faceVerts groups f = some vs) (s : Nat) : ridgeVerts groups sub (f, s) = tableVerts (sub f.grp) vs s := by
  unfold ridgeVerts tableVerts
  simp only [h, Option.bind_eq_bind, Option.bind_some]

section
variable {groups : List (ElGroup N)} {sub : Nat → List (List Nat)}

theorem perm_iff_mem {a b : List Nat} (ha : a.Nodup) (hb : b.Nodup) : a.Perm b ↔ ∀ w, w ∈ a ↔ w ∈ b :=
  ⟨fun h _ => h.mem_iff, fun h => (List.perm_ext_iff_of_nodup ha hb).2 h⟩

/-- The row, the vertex list and the tables of a face. -/
theorem SimplicialTables.of_face (H : SimplicialTables groups sub) {f : FaceId} (hf : IsFace groups f) :
    ∃ n grp row vs a, groups[f.grp]? = some grp ∧ grp.vertexIndices[f.el]? = some row ∧
      SimplexTable (n + 1) grp.fvi ∧ SimplexTable n (sub f.grp) ∧ row.length = n + 2 ∧ row.Nodup ∧
      faceVerts groups f = some vs ∧ a ∈ row ∧ vs.Nodup ∧ vs.length = n + 1 ∧ ∀ w, w ∈ vs ↔ w ∈ row ∧ w ≠ a := by
  obtain ⟨g, el, k⟩ := f
  obtain ⟨grp, hg, hk, hel⟩ := hf
  simp only at hg hk hel ⊢
  obtain ⟨n, t1, t2, t3⟩ := H.table g grp hg
  have hrl : el < grp.vertexIndices.length := by rw [(H.wf _ (List.mem_of_getElem? hg)).1]; exact hel
  have hrow := List.getElem?_eq_getElem hrl
  obtain ⟨hl, hnd⟩ := t3 _ (List.getElem_mem hrl)
  obtain ⟨vs, a, v1, v2, v3, v4⟩ := (tableVerts_simplex t1 hl hnd).1 k hk
  refine ⟨n, grp, _, vs, a, hg, hrow, t1, t2, hl, hnd, by rw [faceVerts_table hg hrow]; exact v1, v2, v3, ?_, v4⟩
  have hp : vs.Perm ((grp.vertexIndices[el]).erase a) := by
    rw [perm_iff_mem v3 (hnd.erase a)]
    intro w
    rw [v4, hnd.mem_erase_iff, and_comm]
  rw [hp.length_eq, List.length_erase_of_mem v2]
  omega

/-- The vertices of a ridge. -/
theorem SimplicialTables.of_ridge (H : SimplicialTables groups sub) {f : FaceId} {s : Nat} (hx : IsRidge groups sub (f, s)) :
    ∃ n grp row a b us, groups[f.grp]? = some grp ∧ grp.vertexIndices[f.el]? = some row ∧
      SimplexTable (n + 1) grp.fvi ∧ SimplexTable n (sub f.grp) ∧ row.length = n + 2 ∧ row.Nodup ∧ a ∈ row ∧ b ∈ row ∧
      a ≠ b ∧ (∃ vs, faceVerts groups f = some vs ∧ vs.Nodup ∧ vs.length = n + 1 ∧ ∀ w, w ∈ vs ↔ w ∈ row ∧ w ≠ a) ∧
      ridgeVerts groups sub (f, s) = some us ∧ us.Nodup ∧ ∀ w, w ∈ us ↔ w ∈ row ∧ w ≠ a ∧ w ≠ b := by
  obtain ⟨n, grp, row, vs, a, h1, h2, h3, h4, h5, h6, h7, h8, h9, h10, h11⟩ := H.of_face hx.1
  obtain ⟨us, b, u1, u2, u3, u4⟩ := (tableVerts_simplex h4 h10 h9).1 s hx.2
  have hb := (h11 b).1 u2
  refine ⟨n, grp, row, a, b, us, h1, h2, h3, h4, h5, h6, h8, hb.1, fun he => hb.2 he.symm, ⟨vs, h7, h9, h10, h11⟩, ?_, u3, ?_⟩
  · rw [ridgeVerts_table h7]; exact u1
  · intro w
    rw [u4, h11, and_assoc]

/-- The ridges of a simplicial mesh. -/
theorem SimplicialTables.ridgesOK (H : SimplicialTables groups sub) : RidgesOK groups sub where
  defined := by
    rintro ⟨f, s⟩ hx
    obtain ⟨_, _, _, _, _, us, _, _, _, _, _, _, _, _, _, _, h, _⟩ := H.of_ridge hx
    exact ⟨us, h⟩
  distinct := by
    rintro f s s' hx hx' ⟨us, us', h1, h2, h3⟩
    obtain ⟨n, grp, row, vs, a, _, _, _, h4, _, _, h7, _, h9, h10, _⟩ := H.of_face hx.1
    rw [ridgeVerts_table h7] at h1 h2
    exact (tableVerts_simplex h4 h10 h9).2.2 s s' us us' hx.2 hx'.2 h1 h2 fun w => h3.mem_iff
  within := by
    rintro ⟨f, s⟩ hx
    obtain ⟨n, grp, row, a, b, us, hg, hrow, t1, t2, hl, hnd, ha, hb, hab, ⟨vs, v1, v2, v3, v4⟩, u1, u2, u3⟩ := H.of_ridge hx
    obtain ⟨g, el, k⟩ := f
    simp only at hg hrow t2 v1 u1
    obtain ⟨_, e2, e3⟩ := tableVerts_simplex t1 hl hnd
    obtain ⟨k', ws, w1, w2, w3, w4⟩ := e2 b hb
    have hws : faceVerts groups ⟨g, el, k'⟩ = some ws := by rw [faceVerts_table hg hrow]; exact w2
    have hface' : IsFace groups ⟨g, el, k'⟩ := by
      obtain ⟨grp', c1, c2, c3⟩ := hx.1
      simp only at c1 c2 c3
      rw [hg] at c1; obtain rfl := Option.some.inj c1
      exact ⟨grp, hg, w1, c3⟩
    have hwl : ws.length = n + 1 := by
      have hp : ws.Perm (row.erase b) := by
        rw [perm_iff_mem w3 (hnd.erase b)]
        intro w
        rw [w4, hnd.mem_erase_iff, and_comm]
      rw [hp.length_eq, List.length_erase_of_mem hb]
      omega
    obtain ⟨_, r2, r3⟩ := tableVerts_simplex t2 hwl w3
    obtain ⟨s', us', s1, s2, s3, s4⟩ := r2 a ((w4 a).2 ⟨ha, hab⟩)
    have hus' : ridgeVerts groups sub (⟨g, el, k'⟩, s') = some us' := by rw [ridgeVerts_table hws]; exact s2
    refine ⟨(⟨g, el, k'⟩, s'), ⟨⟨hface', s1⟩, rfl, rfl, ?_, us, us', u1, hus', ?_⟩, ?_⟩
    · intro he
      have hk : k = k' := congrArg (fun x : Ridge => x.1.face) he
      subst hk
      rw [v1] at hws
      obtain rfl := Option.some.inj hws
      exact ((w4 b).1 ((v4 b).2 ⟨hb, hab.symm⟩)).2 rfl
    · rw [perm_iff_mem u2 s3]
      intro w
      rw [u3, s4, w4]
      tauto
    · rintro ⟨⟨g2, el2, k2⟩, s2'⟩ ⟨hy, y1, y2, y3, vsx, vsy, y4, y5, y6⟩
      simp only at y1 y2
      subst y1
      subst y2
      obtain ⟨n2, grp2, row2, a2, b2, us2, hg2, hrow2, _, _, _, _, ha2, hb2, hab2, ⟨vs2, z1, z2, z3, z4⟩, z5, z6, z7⟩ :=
        H.of_ridge hy
      simp only at hg2 hrow2 z1 z5
      rw [hg] at hg2; obtain rfl := Option.some.inj hg2
      rw [hrow] at hrow2; obtain rfl := Option.some.inj hrow2
      rw [u1] at y4; obtain rfl := Option.some.inj y4
      rw [z5] at y5; obtain rfl := Option.some.inj y5
      have hsame : ∀ w ∈ row, (w ≠ a ∧ w ≠ b) ↔ (w ≠ a2 ∧ w ≠ b2) := by
        intro w hw
        have := y6.mem_iff (a := w)
        rw [u3, z7] at this
        tauto
      have hk2 : IsFace groups ⟨g2, el2, k2⟩ := hy.1
      obtain ⟨grp3, c1, c2, _⟩ := hk2
      simp only at c1 c2
      rw [hg] at c1; obtain rfl := Option.some.inj c1
      obtain ⟨grp4, c1', c2', _⟩ := hx.1
      simp only at c1' c2'
      rw [hg] at c1'; obtain rfl := Option.some.inj c1'
      rw [faceVerts_table hg hrow] at z1 v1
      by_cases haa : a2 = a
      · exfalso
        subst haa
        have hbb : b2 = b := by
          by_contra hne
          have := (hsame b hb)
          have h1 : ¬ (b ≠ a2 ∧ b ≠ b) := fun h => h.2 rfl
          exact h1 (this.2 ⟨hab.symm, fun h => hne h.symm⟩)
        subst hbb
        have hkk : k = k2 := e3 k k2 vs vs2 c2' c2 v1 z1 fun w => by rw [v4, z4]
        subst hkk
        rw [v1] at z1; obtain rfl := Option.some.inj z1
        have hv1 : faceVerts groups ⟨g2, el2, k⟩ = some vs := by rw [faceVerts_table hg hrow]; exact v1
        rw [ridgeVerts_table hv1] at u1 z5
        have hss : s = s2' := (tableVerts_simplex t2 v3 v2).2.2 s s2' us us2 hx.2 hy.2 u1 z5 fun w => y6.mem_iff
        exact y3 (by rw [hss])
      · have hab' : a2 = b := by
          by_contra hne
          exact ((hsame a2 ha2).1 ⟨haa, hne⟩).1 rfl
        have hba : b2 = a := by
          by_contra hne
          have := (hsame a ha).2 ⟨fun h => haa h.symm, fun h => hne h.symm⟩
          exact this.1 rfl
        subst hab'
        subst hba
        have hkk : k2 = k' := e3 k2 k' vs2 ws c2 w1 z1 w2 fun w => by rw [z4, w4]
        subst hkk
        have hss : s2' = s' := by
          rw [ridgeVerts_table hws] at z5
          exact r3 s2' s' us2 us' hy.2 s1 z5 s2 fun w => by rw [z7, s4, w4]; tauto
        rw [hss]
  across := by
    rintro f f' hf hf' hne ⟨vs, vs', h1, h2, h3⟩ s hs
    obtain ⟨n, grp, row, vs0, a, _, _, _, h4, _, _, h7, _, h9, h10, _⟩ := H.of_face hf
    obtain ⟨n', grp', row', vs0', a', _, _, _, h4', _, _, h7', _, h9', h10', _⟩ := H.of_face hf'
    rw [h1] at h7; obtain rfl := Option.some.inj h7
    rw [h2] at h7'; obtain rfl := Option.some.inj h7'
    obtain ⟨us, b, u1, u2, u3, u4⟩ := (tableVerts_simplex h4 h10 h9).1 s hs
    obtain ⟨_, r2, r3⟩ := tableVerts_simplex h4' h10' h9'
    obtain ⟨s', us', s1, s2, s3, s4⟩ := r2 b (h3.mem_iff.1 u2)
    have hr : ridgeVerts groups sub (f, s) = some us := by rw [ridgeVerts_table h1]; exact u1
    have hr' : ridgeVerts groups sub (f', s') = some us' := by rw [ridgeVerts_table h2]; exact s2
    refine ⟨s', ⟨s1, us, us', hr, hr', ?_⟩, ?_⟩
    · rw [perm_iff_mem u3 s3]
      intro w
      rw [u4, s4, h3.mem_iff]
    · rintro t ⟨ht, ua, ub, q1, q2, q3⟩
      rw [hr] at q1; obtain rfl := Option.some.inj q1
      rw [ridgeVerts_table h2] at q2
      refine r3 t s' ub us' ht s1 q2 s2 fun w => ?_
      rw [← q3.mem_iff, u4, s4, h3.mem_iff]

end

/-! ## Computed adjacency -/

section
variable {perFace : Bool} {groups : List (ElGroup N)} {un : Nat → Nat → U} {res : Nat → Nat → N → M} {nv : Nat}
  {sub : Nat → List (List Nat)} {ref : Nat → Nat × List (List Nat)} {r : FaceRestr M U} {aff0 : A}
  {dict : List (List Nat × List BTag)} {btags : List BTag}

theorem inBoundary_computed (hwf : ∀ g ∈ groups, g.WF) {t : BTag} {F : FaceId}
    (h : InBoundary (computeFacial aff0 groups dict btags) t F) : IsBoundaryFace groups F := by
  obtain ⟨g, el, f⟩ := F
  cases hg : groups[g]? with
  | none =>
    obtain ⟨l, _, _, hl, _⟩ := h
    unfold computeFacial at hl
    rw [completeFacial_getElem?, rawFacial_getElem?] at hl
    simp only [hg, Option.map_none] at hl
    cases hl
  | some grp =>
    rw [inBoundary_iff_listed hg] at h
    obtain ⟨t', ht'⟩ := listedUnder_complete h
    exact (mem_unmatchedFaces_iff hwf hg).1 (listedUnder_raw_iff.1 ht').1

theorem computeFacial_length (aff0 : A) (groups : List (ElGroup N)) (dict : List (List Nat × List BTag))
    (btags : List BTag) : (computeFacial aff0 groups dict btags).length = groups.length := by
  simp [computeFacial, completeFacial, rawFacial]

/-- The boundary restriction of a mesh of simplices with computed adjacency meets the assumptions. -/
theorem restrOK_computed (hS : SimplicialTables groups sub) {t : BTag}
    (h : makeFaceRestriction perFace un res (.tag t) nv groups (computeFacial aff0 groups dict btags) = some r)
    (hv : ∀ g ∈ groups, ∀ row ∈ g.vertexIndices, ∀ v ∈ row, v < nv)
    (hr : ∀ (g f : Nat) grp, groups[g]? = some grp → f < grp.nfaces →
      (ref (bdryGroupNr perFace (groups.map ElGroup.nfaces) g f)).2 = sub g) :
    RestrOK perFace un res (.tag t) nv groups (computeFacial aff0 groups dict btags) sub ref r where
  made := h
  length := (computeFacial_length _ _ _ _).symm
  faces := by
    intro g hg
    obtain ⟨i, hi⟩ := List.mem_iff_getElem?.1 hg
    obtain ⟨n, t1, _⟩ := hS.table i g hi
    have := t1.count
    show 0 < g.fvi.length
    omega
  wf := hS.wf
  bound := hv
  req := by
    rintro g grp fg hg hfg ⟨el, f⟩ hef
    have h1 := inBoundary_computed hS.wf ((mem_groupFaces_tag hfg _ _ _ _ _).1 hef)
    obtain ⟨grp', h2, h3, h4⟩ := h1.1
    simp only at h2 h3 h4
    rw [hg] at h2
    obtain rfl := Option.some.inj h2
    exact ⟨h3, h4⟩
  shape := hr

/-- C113: the boundary mesh of a mesh of simplices (no three faces of which have the same vertices) is closed: in the
adjacency computed for it no face is on the boundary, and each face has a neighbor. -/
theorem C113_closed {A' : Type} (hS : SimplicialTables groups sub) (htwo : AtMostTwoSides groups) (hra : BTag.reallyAll ∉ btags)
    (h : makeFaceRestriction perFace un res (.tag .reallyAll) nv groups (computeFacial aff0 groups dict btags) = some r)
    (hv : ∀ g ∈ groups, ∀ row ∈ g.vertexIndices, ∀ v ∈ row, v < nv)
    (hr : ∀ (g f : Nat) grp, groups[g]? = some grp → f < grp.nfaces →
      (ref (bdryGroupNr perFace (groups.map ElGroup.nfaces) g f)).2 = sub g)
    (aff1 : A') (dict' : List (List Nat × List BTag)) (btags' : List BTag) (b : FaceId) :
    (∀ t, ¬ InBoundary (computeFacial aff1 (bdryMeshGroups ref r) dict' btags') t b) ∧
    (IsFace (bdryMeshGroups ref r) b → ∃ b', IsNeighbor (computeFacial aff1 (bdryMeshGroups ref r) dict' btags') b b') := by
  have H := restrOK_computed hS h hv hr
  have hno := C113_no_boundary H hS.ridgesOK htwo (fun F =>
    ⟨inBoundary_computed hS.wf, fun hF => (C05_really_all hS.wf aff0 dict btags hra F hF.1).2 hF⟩)
  have hwf := bdry_wf H hS.ridgesOK
  refine ⟨fun t ht => hno b (inBoundary_computed hwf ht), fun hb => ?_⟩
  by_contra hcon
  refine hno b ⟨hb, fun b' hb' hne hs => hcon ?_⟩
  obtain ⟨b'', hb''⟩ := meshFacePairs_exists hb hb' hne.symm hs
  exact ⟨b'', (isNeighbor_computeFacial hwf aff1 dict' btags').2 hb''⟩

/-- Faces of the boundary mesh with the same vertices come from ridges with the same vertices. -/
theorem sameRidge_of_sameVertices {sel : FaceSel} {fags : List (List (Fag A))}
    (H : RestrOK perFace un res sel nv groups fags sub ref r) {j n s j' n' s' : Nat}
    {F F' : FaceId} (ho : Origin perFace sel groups fags j n F) (ho' : Origin perFace sel groups fags j' n' F')
    (h : SameVertices (bdryMeshGroups ref r) ⟨j, n, s⟩ ⟨j', n', s'⟩) : SameRidge groups sub (F, s) (F', s') := by
  obtain ⟨ws, ws', h1, h2, h3⟩ := h
  rw [bdry_faceVerts H ho] at h1
  rw [bdry_faceVerts H ho'] at h2
  obtain ⟨us, e1, rfl⟩ := Option.map_eq_some_iff.1 h1
  obtain ⟨us', e2, rfl⟩ := Option.map_eq_some_iff.1 h2
  refine ⟨us, us', e1, e2, perm_map_injOn (S := {v | v ∈ r.vertices}) ?_ (ridgeVerts_mem H ho e1)
    (ridgeVerts_mem H ho' e2) h3⟩
  intro a ha b _ hab
  exact (List.idxOf_inj ha).1 hab

theorem origin_number {sel : FaceSel} {fags : List (List (Fag A))} {j n j' n' : Nat} {F : FaceId}
    (hnd : ∀ (g : Nat) grp fg, groups[g]? = some grp → fags[g]? = some fg →
      (∀ ef ∈ groupFaces sel grp.nelements grp.nfaces fg, ef.face < grp.nfaces) ∧
      (groupFaces sel grp.nelements grp.nfaces fg).Nodup)
    (h : Origin perFace sel groups fags j n F) (h' : Origin perFace sel groups fags j' n' F) : j = j' ∧ n = n' := by
  obtain ⟨grp, fg, h1, h2, h3, rfl, h5⟩ := h
  obtain ⟨grp', fg', h1', h2', _, rfl, h5'⟩ := h'
  rw [h1] at h1'; obtain rfl := Option.some.inj h1'
  rw [h2] at h2'; obtain rfl := Option.some.inj h2'
  refine ⟨rfl, ?_⟩
  obtain ⟨hr, hn⟩ := hnd _ grp fg h1 h2
  have hno : (origins perFace grp.nfaces (groupFaces sel grp.nelements grp.nfaces fg) F.face).Nodup := by
    cases perFace with
    | true => exact hn.filter _
    | false =>
      have := (filter_partition_perm grp.nfaces _ hr).nodup_iff.2 hn
      simpa [origins] using this
  exact (List.getElem?_inj (List.getElem?_eq_some_iff.1 h5).1 hno).1 (h5.trans h5'.symm)

/-- C113: if moreover no three boundary faces meet at a ridge, each face of the boundary mesh has exactly one neighbor,
the boundary face on the other side of the ridge. -/
theorem C113_manifold {A' : Type} (hS : SimplicialTables groups sub) (htwo : AtMostTwoSides groups)
    (hra : BTag.reallyAll ∉ btags) (hall : BTag.all ∉ btags) (hbn : btags.Nodup)
    (h : makeFaceRestriction perFace un res (.tag .reallyAll) nv groups (computeFacial aff0 groups dict btags) = some r)
    (hv : ∀ g ∈ groups, ∀ row ∈ g.vertexIndices, ∀ v ∈ row, v < nv)
    (hr : ∀ (g f : Nat) grp, groups[g]? = some grp → f < grp.nfaces →
      (ref (bdryGroupNr perFace (groups.map ElGroup.nfaces) g f)).2 = sub g)
    (hridge : ∀ x y z : Ridge, IsRidge groups sub x → IsRidge groups sub y → IsRidge groups sub z →
      IsBoundaryFace groups x.1 → IsBoundaryFace groups y.1 → IsBoundaryFace groups z.1 →
      SameRidge groups sub x y → SameRidge groups sub x z → x ≠ y → x ≠ z → y = z)
    (aff1 : A') (dict' : List (List Nat × List BTag)) (btags' : List BTag) (hra' : BTag.reallyAll ∉ btags') (b : FaceId)
    (hb : IsFace (bdryMeshGroups ref r) b) :
    interiorRowCount (computeFacial aff1 (bdryMeshGroups ref r) dict' btags') b = 1 ∧
    ∀ b', IsNeighbor (computeFacial aff1 (bdryMeshGroups ref r) dict' btags') b b' ↔
      (IsFace (bdryMeshGroups ref r) b' ∧ b' ≠ b ∧ SameVertices (bdryMeshGroups ref r) b b') := by
  have H := restrOK_computed hS h hv hr
  have hcov := C103_computed hS.wf htwo aff0 dict hbn hra hall (ts := [.reallyAll]) (by simp)
    (fun f hf => ⟨_, List.mem_singleton.2 rfl, (C05_really_all hS.wf aff0 dict btags hra f hf.1).2 hf⟩) (by simp)
  rw [facesCovered_iff] at hcov
  have hnd : ∀ (g : Nat) grp fg, groups[g]? = some grp → (computeFacial aff0 groups dict btags)[g]? = some fg →
      (∀ ef ∈ groupFaces (.tag .reallyAll) grp.nelements grp.nfaces fg, ef.face < grp.nfaces) ∧
      (groupFaces (.tag .reallyAll) grp.nelements grp.nfaces fg).Nodup := by
    intro g grp fg hg hfg
    exact ⟨fun ef hef => (H.req g grp fg hg hfg ef hef).1, (hcov g grp fg hg hfg).1 _ (by simp)⟩
  have horig : ∀ b, IsFace (bdryMeshGroups ref r) b → ∃ F,
      Origin perFace (.tag .reallyAll) groups (computeFacial aff0 groups dict btags) b.grp b.el F ∧
      IsRidge groups sub (F, b.face) ∧ IsBoundaryFace groups F := by
    intro b hb
    obtain ⟨F, ho, hs⟩ := exists_origin H hb
    have hF : IsBoundaryFace groups F := by
      obtain ⟨grp, fg, hg, hfg, hf, _, hn⟩ := ho
      exact inBoundary_computed hS.wf ((mem_groupFaces_tag hfg _ _ _ _ _).1 (mem_of_origins (List.mem_of_getElem? hn)))
    exact ⟨F, ho, ⟨hF.1, hs⟩, hF⟩
  have hne : ∀ {b b' : FaceId} {F F' : FaceId},
      Origin perFace (.tag .reallyAll) groups (computeFacial aff0 groups dict btags) b.grp b.el F →
      Origin perFace (.tag .reallyAll) groups (computeFacial aff0 groups dict btags) b'.grp b'.el F' →
      (F, b.face) = (F', b'.face) → b = b' := by
    rintro ⟨j, n, s⟩ ⟨j', n', s'⟩ F F' ho ho' he
    simp only [Prod.mk.injEq] at he
    obtain ⟨rfl, rfl⟩ := he
    obtain ⟨h1, h2⟩ := origin_number hnd ho ho'
    simp only at h1 h2
    rw [h1, h2]
  have htwoB : AtMostTwoSides (bdryMeshGroups ref r) := by
    intro b b1 b2 hb hb1 hb2 hs1 hs2 hn1 hn2
    obtain ⟨F, o, q, c⟩ := horig b hb
    obtain ⟨F1, o1, q1, c1⟩ := horig b1 hb1
    obtain ⟨F2, o2, q2, c2⟩ := horig b2 hb2
    exact hne o1 o2 (hridge _ _ _ q q1 q2 c c1 c2 (sameRidge_of_sameVertices H o o1 hs1)
      (sameRidge_of_sameVertices H o o2 hs2) (fun he => hn1 (hne o o1 he)) (fun he => hn2 (hne o o2 he)))
  have hclosed := C113_closed hS htwo hra h hv hr aff1 dict' btags' b
  rcases C03_facial_adjacency_complete (bdry_wf H hS.ridgesOK) htwoB aff1 dict' btags' hra' b hb with ⟨h1, _⟩ | ⟨_, h2⟩
  · exact absurd h1 (hclosed.1 _)
  · exact h2

end

/-! ## Examples -/

theorem exTables : SimplexTable 2 [[0, 1], [2, 0], [1, 2]] ∧ SimplexTable 1 [[0], [1]] ∧
    SimplexTable 3 [[0, 2, 1], [0, 1, 3], [0, 3, 2], [1, 2, 3]] := by
  refine ⟨⟨rfl, ?_, ?_⟩, ⟨rfl, ?_, ?_⟩, ⟨rfl, ?_, ?_⟩⟩
  · intro rf h
    fin_cases h
    · exact ⟨by decide, 2, by omega, fun k => by simp; omega⟩
    · exact ⟨by decide, 1, by omega, fun k => by simp; omega⟩
    · exact ⟨by decide, 0, by omega, fun k => by simp; omega⟩
  · simp only [List.pairwise_cons, List.mem_cons, List.not_mem_nil, or_false, forall_eq_or_imp, forall_eq]
    refine ⟨⟨fun h => ?_, fun h => ?_⟩, fun h => ?_, ?_⟩
    · simpa using h 1
    · simpa using h 0
    · simpa using h 0
    · simp
  · intro rf h
    fin_cases h
    · exact ⟨by decide, 1, by omega, fun k => by simp; omega⟩
    · exact ⟨by decide, 0, by omega, fun k => by simp; omega⟩
  · simp only [List.pairwise_cons, List.mem_cons, List.not_mem_nil, or_false, forall_eq]
    refine ⟨fun h => ?_, ?_⟩
    · simpa using h 0
    · simp
  · intro rf h
    fin_cases h
    · exact ⟨by decide, 3, by omega, fun k => by simp; omega⟩
    · exact ⟨by decide, 2, by omega, fun k => by simp; omega⟩
    · exact ⟨by decide, 1, by omega, fun k => by simp; omega⟩
    · exact ⟨by decide, 0, by omega, fun k => by simp; omega⟩
  · simp only [List.pairwise_cons, List.mem_cons, List.not_mem_nil, or_false, forall_eq_or_imp, forall_eq]
    refine ⟨⟨fun h => ?_, fun h => ?_, fun h => ?_⟩, ⟨fun h => ?_, fun h => ?_⟩, fun h => ?_, ?_⟩
    · simpa using h 2
    · simpa using h 1
    · simpa using h 0
    · simpa using h 1
    · simpa using h 0
    · simpa using h 0
    · simp

/-- Two triangles that share an edge. (Example, no code.) -/
def exTwoTri : List (ElGroup Nat) := [⟨0, [[0, 1], [2, 0], [1, 2]], [[0, 1, 2], [2, 1, 3]], [10, 11]⟩]

/-- Their boundary restriction. (Example, no code.) -/
def exTwoTriBdry (perFace : Bool) : Option (FaceRestr (Nat × Nat) Unit) :=
  makeFaceRestriction perFace (fun _ _ => ()) (fun _ f n => (f, n)) (.tag .reallyAll) 4 exTwoTri
    (computeFacial () exTwoTri [] [])

theorem exTwoTri_simplex : SimplicialTables exTwoTri fun _ => [[0], [1]] where
  wf := by intro g hg; simp only [exTwoTri, List.mem_singleton] at hg; subst hg; refine ⟨rfl, by decide⟩
  table := by
    intro g grp hg
    have hm := List.mem_of_getElem? hg
    simp only [exTwoTri, List.mem_singleton] at hm
    subst hm
    exact ⟨1, exTables.1, exTables.2.1, by decide⟩

example : AtMostTwoSides exTwoTri := by
  apply atMostTwo_of_check
  decide +kernel

/-- The ridges of the boundary faces. (Example, no code.) -/
def exBdryRidges (groups : List (ElGroup N)) (sub : Nat → List (List Nat)) : List Ridge :=
  ((allFaceIds groups).filter fun f => !(meshFacePairs groups).any fun p => p.1 == f).flatMap fun f =>
    (List.range (sub f.grp).length).map fun s => (f, s)

theorem mem_exBdryRidges {groups : List (ElGroup N)} {sub : Nat → List (List Nat)} (hwf : ∀ g ∈ groups, g.WF) {x : Ridge}
    (h : IsRidge groups sub x) (hb : IsBoundaryFace groups x.1) : x ∈ exBdryRidges groups sub := by
  obtain ⟨f, s⟩ := x
  refine List.mem_flatMap.2 ⟨f, List.mem_filter.2 ⟨mem_allFaceIds.2 h.1, ?_⟩, List.mem_map.2 ⟨s, List.mem_range.2 h.2, rfl⟩⟩
  simp only [Bool.not_eq_true', List.any_eq_false, beq_iff_eq]
  rintro ⟨a, b⟩ hp he
  simp only at he
  subst he
  obtain ⟨_, h2, h3, h4, _⟩ := meshFacePairs_props hwf hp
  exact hb.2 b h2 h3.symm h4

theorem ridges_of_check {groups : List (ElGroup N)} {sub : Nat → List (List Nat)} (hwf : ∀ g ∈ groups, g.WF)
    (key : ∀ x ∈ exBdryRidges groups sub, ∀ y ∈ exBdryRidges groups sub, ∀ z ∈ exBdryRidges groups sub,
      ((ridgeVerts groups sub x).getD []).isPerm ((ridgeVerts groups sub y).getD []) = true →
      ((ridgeVerts groups sub x).getD []).isPerm ((ridgeVerts groups sub z).getD []) = true →
      x ≠ y → x ≠ z → y = z) :
    ∀ x y z : Ridge, IsRidge groups sub x → IsRidge groups sub y → IsRidge groups sub z →
      IsBoundaryFace groups x.1 → IsBoundaryFace groups y.1 → IsBoundaryFace groups z.1 →
      SameRidge groups sub x y → SameRidge groups sub x z → x ≠ y → x ≠ z → y = z := by
  intro x y z hx hy hz bx cy cz ⟨a, b, ha, hb, hab⟩ ⟨c, d, hc, hd, hcd⟩ n1 n2
  refine key x (mem_exBdryRidges hwf hx bx) y (mem_exBdryRidges hwf hy cy) z (mem_exBdryRidges hwf hz cz) ?_ ?_ n1 n2
  · simpa [ha, hb, List.isPerm_iff] using hab
  · simpa [hc, hd, List.isPerm_iff] using hcd

example : ∀ x y z : Ridge, IsRidge exTwoTri (fun _ => [[0], [1]]) x → IsRidge exTwoTri (fun _ => [[0], [1]]) y →
    IsRidge exTwoTri (fun _ => [[0], [1]]) z → IsBoundaryFace exTwoTri x.1 → IsBoundaryFace exTwoTri y.1 →
    IsBoundaryFace exTwoTri z.1 → SameRidge exTwoTri (fun _ => [[0], [1]]) x y →
    SameRidge exTwoTri (fun _ => [[0], [1]]) x z → x ≠ y → x ≠ z → y = z :=
  ridges_of_check exTwoTri_simplex.wf (by decide +kernel)

example : (∀ g ∈ exTwoTri, ∀ row ∈ g.vertexIndices, ∀ v ∈ row, v < 4) ∧
    (exTwoTriBdry false).map (fun r => (bdryMeshGroups (fun _ => (1, [[0], [1]])) r).map ElGroup.vertexIndices) =
      some [[[0, 1], [2, 0], [3, 2], [1, 3]]] ∧
    (exTwoTriBdry true).map (fun r => (bdryMeshGroups (fun _ => (1, [[0], [1]])) r).map ElGroup.vertexIndices) =
      some [[[0, 1]], [[2, 0], [3, 2]], [[1, 3]]] := by decide +kernel

/- The boundary mesh of a tag that is part of the boundary is not closed. -/
example : (makeFaceRestriction false (fun _ _ => ()) (fun _ f n => (f, n)) (.tag (.user 0 false)) 4 exTwoTri
      (computeFacial () exTwoTri [([0, 1], [.user 0 false])] [.user 0 false])).map
    (fun r => meshFacePairs (bdryMeshGroups (fun _ => (1, [[0], [1]])) r)) = some [] := by decide +kernel

end Meshmode
