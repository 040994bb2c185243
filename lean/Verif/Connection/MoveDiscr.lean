import Verif.Connection.PartSums
import Verif.Connection.Face
import Verif.Mesh.Commute

/-!
# Discretizations of moved meshes (C124)

`affine_map` (meshmode/mesh/processing.py:1372-1480) followed by `Discretization.nodes`
(meshmode/discretization/__init__.py:580-638), by `make_face_restriction`
(meshmode/discretization/connection/face.py:170-383), and by integration.  Arithmetic is exact.
-/
namespace Meshmode

open Finset

variable {K : Type} [Field K] {n : Nat}

/-! ## Model -/

/-- `np.einsum("ij,dej->dei", resampling_mat, mgrp.nodes[…])` for one element,
meshmode/discretization/connection/face.py:348-351. -/
def facePoints (M : Mat K) (x : List (Fin n → K)) : List (Fin n → K) :=
  M.map fun row a => rowDot row (x.map fun p => p a)

/-! ## Specification -/

/-- An entry of an array. (Specification or proof vocabulary, no code.) -/
def entryAt {E : Type} (v : List (List (List E))) (g e i : Nat) : Option E :=
  (v[g]?.bind fun rows => rows[e]?).bind fun row => row[i]?

/-- Each of the nodes with coordinates `X'` is the image of that with coordinates `X`; there are `nn g` in each
element of group `g`. (Specification or proof vocabulary, no code.) -/
def MovedNodes (φ : (Fin n → K) → Fin n → K) (sizes : List Nat) (nn : Nat → Nat) (X X' : Nat → List (List (List K))) :
    Prop :=
  ∀ g < sizes.length, ∀ e < sizes.getD g 0, ∀ i < nn g, ∃ y : Fin n → K,
    (∀ a : Fin n, entryAt (X a) g e i = some (y a)) ∧ ∀ a : Fin n, entryAt (X' a) g e i = some (φ y a)

/-- The matrix has rows of that length whose entries add up to one. (Specification or proof vocabulary, no code.) -/
def SumsToOne (M : Mat K) (len : Nat) : Prop := ∀ row ∈ M, row.length = len ∧ row.sum = 1

/-- The space contains the constants. (Specification or proof vocabulary, no code.) -/
def HasConstants {P : Type} (basis : List (P → K)) : Prop :=
  ∃ c : List K, c.length = basis.length ∧ ∀ x, evalAt basis c x = 1

/-- Face restrictions with other nodes of the boundary mesh. (Specification or proof vocabulary, no code.) -/
def FaceRestr.mapNodes {M U : Type} (ψ : M → M) (r : FaceRestr M U) : FaceRestr M U :=
  ⟨r.vertices, r.groups.map (·.map (Option.map fun b => ⟨b.vertices, ψ b.nodes⟩)), r.batches⟩

/-! ## Points -/

theorem AffMap.apply_eq (f : AffMap n K) (y : Fin n → K) (a : Fin n) :
    f.apply y a = ∑ b, (f.matrix.getD 1) a b * y b + f.offset.getD 0 a := by
  obtain ⟨G, h⟩ := f
  cases G <;> cases h <;> simp [AffMap.apply, Matrix.mulVec, dotProduct, Matrix.one_apply]

theorem rowDot_apply (f : AffMap n K) : ∀ {row : List K} {x : List (Fin n → K)}, row.length = x.length → ∀ a,
    rowDot row ((x.map f.apply).map fun p => p a) =
      ∑ b, (f.matrix.getD 1) a b * rowDot row (x.map fun p => p b) + f.offset.getD 0 a * row.sum
  | [], [], _, a => by simp [rowDot]
  | r :: row, p :: x, h, a => by
    have ih := rowDot_apply f (row := row) (x := x) (by simpa using h) a
    simp only [rowDot, List.map_cons, List.zipWith_cons_cons, List.sum_cons] at ih ⊢
    rw [ih, f.apply_eq, mul_add, Finset.mul_sum]
    simp only [mul_add, Finset.sum_add_distrib]
    have : ∀ b, r * ((f.matrix.getD 1) a b * p b) = (f.matrix.getD 1) a b * (r * p b) := fun b => by ring
    simp only [this]
    ring

theorem facePoints_apply (f : AffMap n K) {M : Mat K} {x : List (Fin n → K)} (hM : SumsToOne M x.length) :
    facePoints M (x.map f.apply) = (facePoints M x).map f.apply := by
  unfold facePoints
  rw [List.map_map]
  refine List.map_congr_left fun row hrow => ?_
  funext a
  obtain ⟨h1, h2⟩ := hM row hrow
  rw [rowDot_apply f h1 a, h2, Function.comp_apply, f.apply_eq, mul_one]

theorem rowDot_ones : ∀ {row : List K} {k : Nat}, row.length = k → rowDot row (List.replicate k 1) = row.sum
  | [], 0, _ => by simp [rowDot]
  | r :: row, k + 1, h => by
    have ih := rowDot_ones (row := row) (k := k) (by simpa using h)
    simp only [rowDot, List.replicate_succ, List.zipWith_cons_cons, List.sum_cons, mul_one] at ih ⊢
    rw [ih]

/-- Resampling reproduces constants. -/
theorem resample_sums {P : Type} {resample : List (P → K) → List P → List P → Option (Mat K)} (hr : ResampleSound resample)
    {basis : List (P → K)} {new old : List P} (hb : basis.length = old.length) (h1 : HasConstants basis) {M : Mat K}
    (hM : resample basis new old = some M) : SumsToOne M old.length := by
  obtain ⟨e1, e2, e3, e4⟩ := hr _ _ _ _ hb hM
  obtain ⟨c, hc, hcx⟩ := h1
  obtain ⟨c', hc', h5, h6⟩ := e3 (List.replicate old.length 1) (by simp)
  have hcc : c' = c := e4 c' c hc' hc (by
    rw [h5]
    apply List.ext_getElem?
    intro i
    rw [List.getElem?_map, List.getElem?_replicate]
    by_cases hi : i < old.length
    · rw [if_pos hi, List.getElem?_eq_getElem hi, Option.map_some, hcx]
    · rw [if_neg hi, List.getElem?_eq_none (by omega), Option.map_none])
  intro row hrow
  refine ⟨e2 row hrow, ?_⟩
  have hmem : rowDot row (List.replicate old.length 1) ∈ matVec M (List.replicate old.length 1) :=
    List.mem_map.2 ⟨row, hrow, rfl⟩
  rw [h6, hcc] at hmem
  obtain ⟨x, _, hx⟩ := List.mem_map.1 hmem
  rw [← rowDot_ones (e2 row hrow), ← hx, hcx]

/-! ## Properties -/

/-- C124: the nodes of the discretization of a moved mesh are the moved nodes of the discretization of the mesh. -/
theorem C124_nodes [DecidableEq K] {f : AffMap n K} {m m' : PMesh n K} (h : affineMapMesh f m = some m')
    {resample : List (List K → K) → List (List K) → List (List K) → Option (Mat K)} (hr : ResampleSound resample)
    {meg : Nat → SGroup K (List K)} {unit : Nat → List (List K)}
    (hb : ∀ i, (meg i).basis.length = (meg i).nodes.length) (hone : ∀ i, HasConstants (meg i).basis)
    (hN : ∀ (i : Nat) grp, m.groups[i]? = some grp → ∀ x ∈ grp.nodes, x.length = (meg i).nodes.length)
    {X : Nat → List (List (List K))}
    (hX : ∀ a : Fin n, discrCoordinate resample meg unit (fun x => x.map fun p => p a) m.groups = some (X a)) :
    m'.groups.map ElGroup.nelements = m.groups.map ElGroup.nelements ∧ ∃ X' : Nat → List (List (List K)),
      (∀ a : Fin n, discrCoordinate resample meg unit (fun x => x.map fun p => p a) m'.groups = some (X' a)) ∧
      MovedNodes f.apply (m.groups.map ElGroup.nelements) (fun g => (unit g).length) X X' := by
  have hm' := (affine_cases f m).2 m' h
  have hgroups : m'.groups = m.groups.map (ElGroup.mapNodes (·.map f.apply)) := by rw [hm']; rfl
  refine ⟨by rw [hgroups, mapNodes_sizes], ?_⟩
  by_cases hn : n = 0
  · subst hn
    exact ⟨X, fun a => a.elim0, fun g _ e _ i _ => ⟨fun a => a.elim0, fun a => a.elim0, fun a => a.elim0⟩⟩
  have a0 : Fin n := ⟨0, by omega⟩
  -- what the resampling of a group does
  have hgrp : ∀ g < m.groups.length, ∃ T : List K → List K,
      (∀ ns, discrGroupNodes resample (meg g) (unit g) ns = some (ns.map T)) ∧
      ∀ (x : List (Fin n → K)), x.length = (meg g).nodes.length → ∃ ys : List (Fin n → K), ys.length = (unit g).length ∧
        ∀ a : Fin n, T (x.map fun p => p a) = ys.map (fun p => p a) ∧
          T ((x.map f.apply).map fun p => p a) = (ys.map f.apply).map fun p => p a := by
    intro g hg
    obtain ⟨_, h2⟩ := mapM_zipIdx_some (hX a0)
    obtain ⟨b, _, hbe⟩ := h2 g _ (List.getElem?_eq_getElem hg)
    by_cases hu : unit g = (meg g).nodes
    · refine ⟨id, fun ns => by rw [discrGroupNodes, if_pos hu, List.map_id], fun x hx => ⟨x, by rw [hx, hu], fun a => ?_⟩⟩
      exact ⟨rfl, rfl⟩
    · rw [discrGroupNodes, if_neg hu] at hbe
      obtain ⟨M, hM, _⟩ := Option.map_eq_some_iff.1 hbe
      refine ⟨matVec M, fun ns => by rw [discrGroupNodes, if_neg hu, hM]; rfl, fun x hx => ⟨facePoints M x, ?_, fun a => ?_⟩⟩
      · rw [facePoints, List.length_map]
        exact (hr _ _ _ _ (hb g) hM).1
      · refine ⟨by simp [facePoints, matVec], ?_⟩
        rw [← facePoints_apply f (by rw [hx]; exact resample_sums hr (hb g) (hone g) hM)]
        simp [facePoints, matVec]
  have hX' : ∀ a : Nat, ∃ v, ∀ ha : a < n,
      discrCoordinate resample meg unit (fun x => x.map fun p => p (⟨a, ha⟩ : Fin n)) m'.groups = some v := by
    intro a
    by_cases ha : a < n
    · have : ∃ v, discrCoordinate resample meg unit (fun x => x.map fun p => p (⟨a, ha⟩ : Fin n)) m'.groups = some v := by
        unfold discrCoordinate
        refine mapM_isSome_of fun gi hgi => ?_
        obtain ⟨grp, i⟩ := gi
        have hi := (List.getElem?_eq_some_iff.1 (List.mem_zipIdx_iff_getElem?.1 hgi)).1
        obtain ⟨T, hT, _⟩ := hgrp i (by rw [hgroups, List.length_map] at hi; exact hi)
        exact ⟨_, hT _⟩
      obtain ⟨v, hv⟩ := this
      exact ⟨v, fun _ => hv⟩
    · exact ⟨[], fun h => absurd h ha⟩
  choose X' hX' using hX'
  refine ⟨X', fun a => hX' a a.2, ?_⟩
  intro g hg e he i hi
  rw [List.length_map] at hg
  have hgg := List.getElem?_eq_getElem hg
  rw [List.getD_eq_getElem?_getD, List.getElem?_map, hgg, Option.map_some, Option.getD_some] at he
  have he' : e < m.groups[g].nodes.length := he
  have hxe := List.getElem?_eq_getElem he'
  obtain ⟨T, hT, hpts⟩ := hgrp g hg
  obtain ⟨ys, hys, hcoord⟩ := hpts _ (hN g _ hgg _ (List.getElem_mem he'))
  have hyi := List.getElem?_eq_getElem (l := ys) (i := i) (by rw [hys]; exact hi)
  refine ⟨ys[i]'(by rw [hys]; exact hi), fun a => ?_, fun a => ?_⟩
  · obtain ⟨_, h2⟩ := mapM_zipIdx_some (hX a)
    obtain ⟨b, hb1, hb2⟩ := h2 g _ hgg
    rw [hT] at hb2
    obtain rfl := Option.some.inj hb2
    simp only [entryAt, hb1, Option.bind_some, List.getElem?_map, hxe, Option.map_some, (hcoord a).1, hyi]
  · obtain ⟨_, h2⟩ := mapM_zipIdx_some (hX' a a.2)
    obtain ⟨b, hb1, hb2⟩ := h2 g (ElGroup.mapNodes (·.map f.apply) m.groups[g]) (by
      rw [hgroups, List.getElem?_map, hgg]; rfl)
    rw [hT] at hb2
    obtain rfl := Option.some.inj hb2
    simp only [entryAt, hb1, Option.bind_some, List.getElem?_map, ElGroup.mapNodes, hxe, Option.map_some,
      (hcoord a).2, hyi]

section
variable {N M U A B : Type}

theorem setRows_map {α β : Type} (f : α → β) (idx : List Nat) :
    ∀ (rows arr : List (Option α)), (setRows arr idx rows).map (Option.map f) =
      setRows (arr.map (Option.map f)) idx (rows.map (Option.map f)) := by
  unfold setRows
  induction idx with
  | nil => intro rows arr; simp
  | cons i idx ih =>
    intro rows arr
    cases rows with
    | nil => simp
    | cons r rows =>
      simp only [List.zip_cons_cons, List.foldl_cons, List.map_cons]
      rw [ih, List.map_set]

theorem sharedFaces_map (un : Nat → U) {row row' : Nat → Nat → Option (BdryEl M)} (f : BdryEl M → BdryEl M)
    (h : ∀ fc el, row' fc el = (row fc el).map f) (igrp : Nat) (faces : List ElFace) (fs : List Nat) :
    ∀ (base : Nat) (arr : List (Option (BdryEl M))),
      sharedFaces un row' igrp faces fs base (arr.map (Option.map f)) =
        ((sharedFaces un row igrp faces fs base arr).1.map (Option.map f),
          (sharedFaces un row igrp faces fs base arr).2) := by
  induction fs with
  | nil => intro base arr; rfl
  | cons fc fs ih =>
    intro base arr
    simp only [sharedFaces]
    have : (faceEls faces fc).map (row' fc) = ((faceEls faces fc).map (row fc)).map (Option.map f) := by
      rw [List.map_map]
      exact List.map_congr_left fun el _ => h fc el
    rw [this, ← setRows_map, ih]

theorem faceGroups_map (perFace : Bool) (un : Nat → U) {row row' : Nat → Nat → Option (BdryEl M)}
    (f : BdryEl M → BdryEl M) (h : ∀ fc el, row' fc el = (row fc el).map f) (igrp nf : Nat) (faces : List ElFace) :
    faceGroups perFace un row' igrp nf faces =
      (faceGroups perFace un row igrp nf faces).map fun r => (r.1.map (Option.map f), r.2) := by
  unfold faceGroups
  split
  · rw [List.map_map]
    refine List.map_congr_left fun fc _ => ?_
    simp only [Function.comp_apply]
    have : (faceEls faces fc).map (row' fc) = ((faceEls faces fc).map (row fc)).map (Option.map f) := by
      rw [List.map_map]
      exact List.map_congr_left fun el _ => h fc el
    rw [this, setRows_map]
    simp
  · split
    · rfl
    · rw [List.map_cons, List.map_nil]
      have := sharedFaces_map un f h igrp faces (List.range nf) 0 (List.replicate faces.length none)
      rw [List.map_replicate] at this
      exact congrArg (fun x => [x]) this

theorem interiorRows_mapAff (c : A → B) (fg : Fag A) : (fg.mapAff c).interiorRows = fg.interiorRows := by
  cases fg <;> rfl

theorem groupFaces_mapAff (c : A → B) (sel : FaceSel) (nel nf : Nat) (l : List (Fag A)) :
    groupFaces sel nel nf (l.map (Fag.mapAff c)) = groupFaces sel nel nf l := by
  cases sel <;> simp only [groupFaces, List.flatMap_map, interiorRows_mapAff, bdry_mapAff]

/-- Restrictions of meshes with other nodes and adjacency maps. -/
theorem faceRestriction_transport (perFace : Bool) (un : Nat → Nat → U) {res : Nat → Nat → N → M} (φ : N → N) (ψ : M → M)
    (c : A → B) (sel : FaceSel) (nv : Nat) {groups : List (ElGroup N)} (fags : List (List (Fag A)))
    (h : ∀ (g : Nat) grp, groups[g]? = some grp → ∀ x ∈ grp.nodes, ∀ fc, res g fc (φ x) = ψ (res g fc x)) :
    makeFaceRestriction perFace un res sel nv (groups.map (ElGroup.mapNodes φ)) (fags.map (·.map (Fag.mapAff c))) =
      (makeFaceRestriction perFace un res sel nv groups fags).map (FaceRestr.mapNodes ψ) := by
  have hvalid : ∀ t, meshHasBoundary (fags.map (·.map (Fag.mapAff c))) t = meshHasBoundary fags t := by
    intro t
    unfold meshHasBoundary
    rw [List.any_map]
    congr 1
    funext l
    rw [Function.comp_apply, bdrys_mapAff]
  have hnrs : faceVertexNrs sel nv (groups.map (ElGroup.mapNodes φ)) (fags.map (·.map (Fag.mapAff c))) =
      faceVertexNrs sel nv groups fags := by
    cases sel with
    | interior => rfl
    | all => rfl
    | tag t =>
      simp only [faceVertexNrs, List.zip_map, List.flatMap_map, Prod.map_fst, Prod.map_snd, bdry_mapAff]
      rfl
  unfold makeFaceRestriction
  rw [hnrs]
  simp only [hvalid]
  split_ifs with hv
  · rfl
  · rw [Option.map_some]
    have hgs : ((groups.map (ElGroup.mapNodes φ)).zip (fags.map (·.map (Fag.mapAff c)))).zipIdx.flatMap (fun p =>
        faceGroups perFace (un p.2) (bdryEl (res p.2) (faceVertexNrs sel nv groups fags) p.1.1) p.2 p.1.1.nfaces
          (groupFaces sel p.1.1.nelements p.1.1.nfaces p.1.2)) =
        ((groups.zip fags).zipIdx.flatMap fun p =>
          faceGroups perFace (un p.2) (bdryEl (res p.2) (faceVertexNrs sel nv groups fags) p.1.1) p.2 p.1.1.nfaces
            (groupFaces sel p.1.1.nelements p.1.1.nfaces p.1.2)).map fun r =>
              (r.1.map (Option.map fun b => ⟨b.vertices, ψ b.nodes⟩), r.2) := by
      rw [List.zip_map, List.zipIdx_map, List.flatMap_map, List.map_flatMap]
      refine List.flatMap_congr fun p hp => ?_
      obtain ⟨⟨grp, l⟩, i⟩ := p
      have hz := List.mem_zipIdx_iff_getElem?.1 hp
      have hgi : groups[i]? = some grp := by
        rw [List.zip, List.getElem?_zipWith] at hz
        cases hg : groups[i]? with
        | none => rw [hg] at hz; simp at hz
        | some a =>
          cases hl : fags[i]? with
          | none => rw [hg, hl] at hz; simp at hz
          | some b => rw [hg, hl] at hz; simp at hz; rw [hz.1]
      simp only [Prod.map_apply, id_eq, groupFaces_mapAff, mapNodes_nelements]
      refine faceGroups_map perFace (un i) _ (fun fc el => ?_) i _ _
      simp only [bdryEl, ElGroup.mapNodes, List.getElem?_map]
      cases h1 : grp.vertexIndices[el]? with
      | none => simp
      | some row =>
        cases h2 : grp.nodes[el]? with
        | none => simp
        | some x =>
          cases h3 : grp.fvi[fc]? with
          | none => simp
          | some ref =>
            simp only [Option.map_some]
            rw [h i grp hgi x (List.mem_of_getElem? h2) fc]
    rw [hgs]
    simp [FaceRestr.mapNodes, Function.comp_def]

end

/-- C124: the boundary mesh of a moved mesh is the moved boundary mesh, and the connections to it are the same: for
each tag the restriction exists for both meshes or neither, with the same vertices, batches and elements, and the
moved nodes. -/
theorem C124_boundary {U : Type} {f : AffMap n K} {m m' : PMesh n K} (h : affineMapMesh f m = some m')
    {fags : List (List (Fag (AffMap n K)))} (hf : m.lazy.facial = .data fags) (perFace : Bool) (un : Nat → Nat → U)
    {R : Nat → Nat → Mat K}
    (hR : ∀ (g : Nat) grp, m.groups[g]? = some grp → ∀ x ∈ grp.nodes, ∀ fc, SumsToOne (R g fc) x.length)
    (sel : FaceSel) (nv : Nat) :
    ∃ fags', m'.lazy.facial = .data fags' ∧
      makeFaceRestriction perFace un (fun g fc => facePoints (n := n) (R g fc)) sel nv m'.groups fags' =
        (makeFaceRestriction perFace un (fun g fc => facePoints (n := n) (R g fc)) sel nv m.groups fags).map
          (FaceRestr.mapNodes (·.map f.apply)) := by
  have hm' := (affine_cases f m).2 m' h
  refine ⟨fags.map (·.map (Fag.mapAff (computeNewMap f))), ?_, ?_⟩
  · rw [hm']
    simp [FMesh.transport, hf]
  · have hgroups : m'.groups = m.groups.map (ElGroup.mapNodes (·.map f.apply)) := by rw [hm']; rfl
    rw [hgroups]
    exact faceRestriction_transport perFace un _ _ _ sel nv fags fun g grp hg x hx fc =>
      facePoints_apply f (hR g grp hg x hx fc)

/-- C124: the points of the boundary mesh are on the faces: with the resampling matrix from the unit nodes `old` of the
group to the points `new` of the face, they are the images of `new` under the map with coordinates in the span of the
basis that takes `old` to the nodes of the element. -/
theorem C124_face_points {P : Type} {resample : List (P → K) → List P → List P → Option (Mat K)}
    (hr : ResampleSound resample) {basis : List (P → K)} {new old : List P} (hb : basis.length = old.length) {M : Mat K}
    (hM : resample basis new old = some M) {x : List (Fin n → K)} (hx : x.length = old.length) :
    ∃ c : Fin n → List K, (∀ a, (c a).length = basis.length) ∧ old.map (fun u a => evalAt basis (c a) u) = x ∧
      facePoints M x = new.map fun u a => evalAt basis (c a) u := by
  obtain ⟨e1, _, e3, _⟩ := hr _ _ _ _ hb hM
  choose c h1 h2 h3 using fun a : Fin n => e3 (x.map fun p => p a) (by simpa using hx)
  refine ⟨c, h1, ?_, ?_⟩
  · refine List.ext_getElem (by simp [hx]) fun i hi hi' => ?_
    funext a
    have := List.getElem_of_eq (h2 a) (i := i) (by simpa using hi)
    simpa using this
  · unfold facePoints
    refine List.ext_getElem (by simp [e1]) fun i hi hi' => ?_
    funext a
    have := List.getElem_of_eq (h3 a) (i := i) (by simpa [matVec] using hi)
    simp only [matVec, List.getElem_map] at this
    rw [List.getElem_map, List.getElem_map]
    exact this

/-! ## Integrals -/

/-- Differentiation annihilates constants. (Specification or proof vocabulary, no code.) -/
def DiffConst (dt : L2Data) (nn : Nat) : Prop :=
  ∀ a < dt.dim, ∀ i < nn, ∑ j ∈ range nn, ((dt.diff a).getD i []).getD j 0 = 0

theorem entry_rowsArr {v : List (List (List ℝ))} {g e i : Nat} {y : ℝ} (h : entryAt v g e i = some y) :
    rowsArr v g e i = y := by
  unfold entryAt at h
  obtain ⟨row, h1, h2⟩ := Option.bind_eq_some_iff.1 h
  obtain ⟨rows, h3, h4⟩ := Option.bind_eq_some_iff.1 h1
  simp only [rowsArr, List.getD_eq_getElem?_getD, h3, Option.getD_some, h4, h2]

theorem refDeriv_moved {f : AffMap n ℝ} {sizes : List Nat} {nn : Nat → Nat} {X X' : Nat → List (List (List ℝ))}
    (hX : MovedNodes f.apply sizes nn X X') {dt : L2Data} {g : Nat} (hd : DiffConst dt (nn g)) (hg : g < sizes.length)
    {e : Nat} (he : e < sizes.getD g 0) {i : Nat} (hi : i < nn g) {a : Nat} (ha : a < dt.dim) (c : Fin n) :
    refDeriv dt (nn g) (rowsArr (X' c)) g e i a =
      ∑ b : Fin n, (f.matrix.getD 1) c b * refDeriv dt (nn g) (rowsArr (X b)) g e i a := by
  unfold refDeriv
  have h1 : ∀ j ∈ range (nn g), ((dt.diff a).getD i []).getD j 0 * rowsArr (X' c) g e j =
      (∑ b : Fin n, (f.matrix.getD 1) c b * (((dt.diff a).getD i []).getD j 0 * rowsArr (X b) g e j)) +
        f.offset.getD 0 c * ((dt.diff a).getD i []).getD j 0 := by
    intro j hj
    obtain ⟨y, y1, y2⟩ := hX g hg e he j (mem_range.1 hj)
    rw [entry_rowsArr (y2 c), f.apply_eq, mul_add, Finset.mul_sum]
    congr 1
    · refine Finset.sum_congr rfl fun b _ => ?_
      rw [entry_rowsArr (y1 b)]
      ring
    · ring
  rw [Finset.sum_congr rfl h1, Finset.sum_add_distrib, ← Finset.mul_sum, hd a ha i hi, mul_zero, add_zero,
    Finset.sum_comm]
  refine Finset.sum_congr rfl fun b _ => ?_
  rw [Finset.mul_sum]

/-- The Jacobian matrix at a node. (Specification or proof vocabulary, no code.) -/
noncomputable def jacAt (dt : L2Data) (nn n : Nat) (X : Nat → DofArr ℝ) (g e i : Nat) : Matrix (Fin n) (Fin dt.dim) ℝ :=
  Matrix.of fun c a => refDeriv dt nn (X c) g e i a

theorem areaElement_jac (dt : L2Data) (nn n : Nat) (X : Nat → DofArr ℝ) (g e i : Nat) :
    areaElement dt nn n X g e i = √((jacAt dt nn n X g e i).transpose * jacAt dt nn n X g e i).det := by
  unfold areaElement
  congr 2
  ext a b
  simp only [Matrix.of_apply, Matrix.mul_apply, Matrix.transpose_apply, jacAt]
  rw [Finset.sum_range]

theorem jacAt_moved {f : AffMap n ℝ} {sizes : List Nat} {nn : Nat → Nat} {X X' : Nat → List (List (List ℝ))}
    (hX : MovedNodes f.apply sizes nn X X') {dt : L2Data} {g : Nat} (hd : DiffConst dt (nn g)) (hg : g < sizes.length)
    {e : Nat} (he : e < sizes.getD g 0) {i : Nat} (hi : i < nn g) :
    jacAt dt (nn g) n (fun c => rowsArr (X' c)) g e i =
      f.matrix.getD 1 * jacAt dt (nn g) n (fun c => rowsArr (X c)) g e i := by
  ext c a
  simp only [jacAt, Matrix.of_apply, Matrix.mul_apply]
  exact refDeriv_moved hX hd hg he hi a.2 c

/-- C124: similar maps: if the matrix satisfies `AᵀA = s` (as rotations, reflections, translations and scalings do),
integrals over elements of dimension `k` in any ambient dimension are multiplied by `s^(k/2)`. -/
theorem C124_similar {f : AffMap n ℝ} {s : ℝ} (hs : 0 ≤ s)
    (hA : (f.matrix.getD 1).transpose * f.matrix.getD 1 = s • (1 : Matrix (Fin n) (Fin n) ℝ)) {sizes : List Nat}
    {nn : Nat → Nat} {X X' : Nat → List (List (List ℝ))} (hX : MovedNodes f.apply sizes nn X X') {dts : Nat → L2Data}
    (hd : ∀ g < sizes.length, DiffConst (dts g) (nn g)) {k : Nat} (hk : ∀ g < sizes.length, (dts g).dim = k)
    (u : List (List (List ℝ))) :
    meshIntegral dts nn n X' u sizes = √(s ^ k) * meshIntegral dts nn n X u sizes := by
  unfold meshIntegral
  rw [Finset.mul_sum]
  refine Finset.sum_congr rfl fun g hg => ?_
  rw [Finset.mul_sum]
  refine Finset.sum_congr rfl fun e he => ?_
  unfold elIntegral
  rw [Finset.mul_sum]
  refine Finset.sum_congr rfl fun i hi => ?_
  have hg' := mem_range.1 hg
  rw [areaElement_jac, areaElement_jac, jacAt_moved hX (hd g hg') hg' (mem_range.1 he) (mem_range.1 hi),
    Matrix.transpose_mul, Matrix.mul_assoc, ← Matrix.mul_assoc (f.matrix.getD 1).transpose, hA, Matrix.smul_mul,
    Matrix.one_mul, Matrix.mul_smul, Matrix.det_smul, Fintype.card_fin,
    Real.sqrt_mul (pow_nonneg hs _), show s ^ (dts g).dim = s ^ k by rw [hk g hg']]
  ring

/-- C124: rigid motions keep all integrals, over volumes, surfaces and curves. -/
theorem C124_rigid {f : AffMap n ℝ} (hA : (f.matrix.getD 1).transpose * f.matrix.getD 1 = 1) {sizes : List Nat}
    {nn : Nat → Nat} {X X' : Nat → List (List (List ℝ))} (hX : MovedNodes f.apply sizes nn X X') {dts : Nat → L2Data}
    (hd : ∀ g < sizes.length, DiffConst (dts g) (nn g)) {k : Nat} (hk : ∀ g < sizes.length, (dts g).dim = k)
    (u : List (List (List ℝ))) :
    meshIntegral dts nn n X' u sizes = meshIntegral dts nn n X u sizes := by
  rw [C124_similar zero_le_one (by rw [hA, one_smul]) hX hd hk u]
  simp

/-- C124: integrals over volume meshes are multiplied by the absolute value of the determinant. -/
theorem C124_volume {f : AffMap n ℝ} {sizes : List Nat} {nn : Nat → Nat} {X X' : Nat → List (List (List ℝ))}
    (hX : MovedNodes f.apply sizes nn X X') {dts : Nat → L2Data} (hd : ∀ g < sizes.length, DiffConst (dts g) (nn g))
    (hk : ∀ g < sizes.length, (dts g).dim = n) (u : List (List (List ℝ))) :
    meshIntegral dts nn n X' u sizes = |(f.matrix.getD 1).det| * meshIntegral dts nn n X u sizes := by
  unfold meshIntegral
  rw [Finset.mul_sum]
  refine Finset.sum_congr rfl fun g hg => ?_
  rw [Finset.mul_sum]
  refine Finset.sum_congr rfl fun e he => ?_
  unfold elIntegral
  rw [Finset.mul_sum]
  refine Finset.sum_congr rfl fun i hi => ?_
  have hg' := mem_range.1 hg
  have hsq : ∀ (k : Nat) (hkn : k = n) (G : Matrix (Fin n) (Fin n) ℝ) (J : Matrix (Fin n) (Fin k) ℝ),
      √((G * J).transpose * (G * J)).det = |G.det| * √(J.transpose * J).det := by
    intro k hkn G J
    subst hkn
    rw [Matrix.det_mul, Matrix.det_transpose, Matrix.det_mul, Matrix.det_mul, Matrix.det_transpose,
      Real.sqrt_mul_self_eq_abs, Real.sqrt_mul_self_eq_abs, abs_mul]
  rw [areaElement_jac, areaElement_jac, jacAt_moved hX (hd g hg') hg' (mem_range.1 he) (mem_range.1 hi),
    hsq _ (hk g hg')]
  ring

/-! ## Cases -/

/-- Two segments in the plane with a boundary at one end. (Example, no code.) -/
def exMove : PMesh 2 ℚ where
  ambientDim := 2
  vertices := some [![0, 0], ![1, 0], ![1, 2]]
  groups := [⟨0, [[0], [1]], [[0, 1], [1, 2]], [[![0, 0], ![1, 0]], [![1, 0], ![1, 2]]]⟩]
  lazy := ⟨some true, .missing, .data [[.interior 0 0 [⟨0, 1, 1, 0⟩, ⟨1, 0, 0, 1⟩] ⟨none, none⟩,
    .boundary 0 .all [⟨0, 0⟩, ⟨1, 1⟩]]]⟩

/-- A quarter turn and a shift. (Example, no code.) -/
def exMoveMap : AffMap 2 ℚ := ⟨some !![0, -1; 1, 0], some ![5, 0]⟩

/-- The reference segment with the interpolating functions. (Example, no code.) -/
def exMoveRef (_ : Nat) : SGroup ℚ (List ℚ) :=
  ⟨true, 0, [[-1], [1]], [fun x => (1 - x.getD 0 0) / 2, fun x => (1 + x.getD 0 0) / 2]⟩

/-- C124: the hypotheses of `C124_nodes`, for one node in the middle of each segment. -/
example : (∃ m', affineMapMesh exMoveMap exMove = some m') ∧ ResampleSound (lagrangeResample (P := List ℚ)) ∧
    (∀ i, (exMoveRef i).basis.length = (exMoveRef i).nodes.length) ∧ (∀ i, HasConstants (exMoveRef i).basis) ∧
    (∀ (i : Nat) grp, exMove.groups[i]? = some grp → ∀ x ∈ grp.nodes, x.length = (exMoveRef i).nodes.length) ∧
    ∀ a : Fin 2, discrCoordinate lagrangeResample exMoveRef (fun _ => [[0]]) (fun x => x.map fun p => p a) exMove.groups =
      some (if a = 0 then [[[1 / 2], [1]]] else [[[0], [1]]]) := by
  refine ⟨⟨_, rfl⟩, lagrangeResample_sound, fun _ => rfl, fun _ => ⟨[1, 1], rfl, fun x => ?_⟩, ?_, by decide +kernel⟩
  · simp [exMoveRef, evalAt]
    ring
  · intro i grp h x hx
    have := List.mem_of_getElem? h
    simp only [exMove, List.mem_singleton] at this
    subst this
    simp only [List.mem_cons, List.not_mem_nil, or_false] at hx
    rcases hx with rfl | rfl <;> rfl

/-- C124: the hypotheses of `C124_boundary`, for the ends of the segments. -/
example : (∃ m', affineMapMesh exMoveMap exMove = some m') ∧ (∃ fags, exMove.lazy.facial = .data fags) ∧
    ∀ (g : Nat) grp, exMove.groups[g]? = some grp → ∀ x ∈ grp.nodes, ∀ fc : Nat,
      SumsToOne (if fc = 0 then [[1, 0]] else [[0, 1]] : Mat ℚ) x.length := by
  refine ⟨⟨_, rfl⟩, ⟨_, rfl⟩, ?_⟩
  intro g grp h x hx fc
  have := List.mem_of_getElem? h
  simp only [exMove, List.mem_singleton] at this
  subst this
  simp only [List.mem_cons, List.not_mem_nil, or_false] at hx
  rcases hx with rfl | rfl <;> by_cases hfc : fc = 0 <;> simp [SumsToOne, hfc]

/-- C124: the hypotheses of `C124_face_points`, for one end of a segment. -/
example : ResampleSound (lagrangeResample (P := List ℚ)) ∧ (exMoveRef 0).basis.length = (exMoveRef 0).nodes.length ∧
    lagrangeResample (exMoveRef 0).basis [[1]] (exMoveRef 0).nodes = some [[0, 1]] ∧
    ([![0, 0], ![1, 2]] : List (Fin 2 → ℚ)).length = (exMoveRef 0).nodes.length ∧
    facePoints (n := 2) [[0, 1]] [![0, 0], ![1, 2]] = [![(1 : ℚ), 2]] :=
  ⟨lagrangeResample_sound, rfl, by decide +kernel, rfl, by decide +kernel⟩

/-- Linear functions on the reference segment. (Example, no code.) -/
noncomputable def exMoveLine : L2Data := ⟨1, fun _ => [[-1 / 2, 1 / 2], [-1 / 2, 1 / 2]], [1, 1]⟩

/-- C124: the hypotheses of `C124_similar` and `C124_rigid`, for a segment in the plane. -/
example : ((⟨some !![0, -1; 1, 0], some ![5, 0]⟩ : AffMap 2 ℝ).matrix.getD 1).transpose *
      (⟨some !![0, -1; 1, 0], some ![5, 0]⟩ : AffMap 2 ℝ).matrix.getD 1 = 1 ∧
    MovedNodes (⟨some !![0, -1; 1, 0], some ![5, 0]⟩ : AffMap 2 ℝ).apply [1] (fun _ => 2)
      (fun a => if a = 0 then [[[0, 1]]] else [[[0, 3]]]) (fun a => if a = 0 then [[[5, 2]]] else [[[0, 1]]]) ∧
    DiffConst exMoveLine 2 ∧ exMoveLine.dim = 1 := by
  refine ⟨?_, ?_, ?_, rfl⟩
  · ext i j
    fin_cases i <;> fin_cases j <;> simp [Matrix.mul_apply, Fin.sum_univ_two]
  · intro g hg e he i hi
    obtain rfl : g = 0 := by simpa using hg
    obtain rfl : e = 0 := by simpa using he
    have : i = 0 ∨ i = 1 := by simp at hi; omega
    rcases this with rfl | rfl
    · refine ⟨![0, 0], fun a => ?_, fun a => ?_⟩ <;> fin_cases a <;> simp [entryAt, AffMap.apply_eq]
    · refine ⟨![1, 3], fun a => ?_, fun a => ?_⟩ <;> fin_cases a <;> simp [entryAt, AffMap.apply_eq]
      norm_num
  · intro a _ i hi
    have : i = 0 ∨ i = 1 := by omega
    rcases this with rfl | rfl <;> simp [exMoveLine, Finset.sum_range_succ] <;> norm_num

/-- Linear functions on the reference triangle. (Example, no code.) -/
noncomputable def exMoveTri : L2Data :=
  ⟨2, fun a => List.replicate 3 (if a = 0 then [-1 / 2, 1 / 2, 0] else [-1 / 2, 0, 1 / 2]), [2 / 3, 2 / 3, 2 / 3]⟩

/-- C124: the hypotheses of `C124_volume`, for a triangle that is sheared and stretched. -/
example : MovedNodes (⟨some !![3, 1; 0, 2], none⟩ : AffMap 2 ℝ).apply [1] (fun _ => 3)
      (fun a => if a = 0 then [[[0, 1, 0]]] else [[[0, 0, 1]]]) (fun a => if a = 0 then [[[0, 3, 1]]] else [[[0, 0, 2]]]) ∧
    DiffConst exMoveTri 3 ∧ exMoveTri.dim = 2 := by
  refine ⟨?_, ?_, rfl⟩
  · intro g hg e he i hi
    obtain rfl : g = 0 := by simpa using hg
    obtain rfl : e = 0 := by simpa using he
    have : i = 0 ∨ i = 1 ∨ i = 2 := by simp at hi; omega
    rcases this with rfl | rfl | rfl
    · refine ⟨![0, 0], fun a => ?_, fun a => ?_⟩ <;> fin_cases a <;> simp [entryAt, AffMap.apply_eq]
    · refine ⟨![1, 0], fun a => ?_, fun a => ?_⟩ <;> fin_cases a <;> simp [entryAt, AffMap.apply_eq]
    · refine ⟨![0, 1], fun a => ?_, fun a => ?_⟩ <;> fin_cases a <;> simp [entryAt, AffMap.apply_eq]
  · intro a ha i hi
    have ha' : a = 0 ∨ a = 1 := by simp [exMoveTri] at ha; omega
    have : i = 0 ∨ i = 1 ∨ i = 2 := by omega
    rcases ha' with rfl | rfl <;> rcases this with rfl | rfl | rfl <;>
      simp [exMoveTri, Finset.sum_range_succ] <;> norm_num

end Meshmode
