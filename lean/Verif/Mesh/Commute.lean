import Verif.Mesh.Affine
import Verif.Mesh.Orient
import Verif.Mesh.Split
import Verif.Mesh.Unused
import Verif.Partition.Model

/-!
# Moving a mesh and cutting it can be exchanged (C110)

`affine_map` and `map_mesh` (meshmode/mesh/processing.py:1322-1480) together with `partition_mesh`,
`merge_disjoint_meshes`, `split_mesh_groups`, `remove_unused_vertices` and
`find_volume_mesh_element_orientations` of the same file.
-/
namespace Meshmode

variable {N N' P P' A B : Type}

/-! ## Specification -/

/-- A group with other nodes. (Specification or proof vocabulary, no code.) -/
def ElGroup.mapNodes (φ : N → N') (g : ElGroup N) : ElGroup N' := ⟨g.kind, g.fvi, g.vertexIndices, g.nodes.map φ⟩

/-- A mesh with other nodes, vertices and adjacency maps. (Specification or proof vocabulary, no code.) -/
def MMesh.transport (φ : N → N') (ψ : P → P') (c : A → B) (m : MMesh N P A) : MMesh N' P' B :=
  ⟨m.vertices.map ψ, m.groups.map (ElGroup.mapNodes φ), m.fags.map (·.map (Fag.mapAff c))⟩

/-- A mesh with vertices and facial adjacency, as `affine_map` and `map_mesh` see it.
(Specification or proof vocabulary, no code.) -/
def MMesh.asMesh (dim : Nat) (conforming : Option Bool) (nodal : Slot (List Nat × List Nat)) (m : MMesh N P A) :
    FMesh N P A :=
  ⟨dim, some m.vertices, m.groups, ⟨conforming, nodal, .data m.fags⟩⟩

/-! ## Lemmas -/

theorem mapNodes_nelements (φ : N → N') (g : ElGroup N) : (g.mapNodes φ).nelements = g.nelements := by
  simp [ElGroup.mapNodes, ElGroup.nelements]

theorem mapNodes_sizes (φ : N → N') (gs : List (ElGroup N)) :
    (gs.map (ElGroup.mapNodes φ)).map ElGroup.nelements = gs.map ElGroup.nelements := by
  simp [Function.comp_def, mapNodes_nelements]

theorem transport_sizes (φ : N → N') (ψ : P → P') (c : A → B) (m : MMesh N P A) :
    (m.transport φ ψ c).sizes = m.sizes := mapNodes_sizes φ m.groups

theorem transport_baseOf (φ : N → N') (ψ : P → P') (c : A → B) (m : MMesh N P A) :
    (m.transport φ ψ c).baseOf = m.baseOf := by
  funext g; unfold MMesh.baseOf; rw [transport_sizes]

theorem mapM_map_option {α β γ : Type} (f : α → Option β) (g : β → γ) (l : List α) :
    (l.mapM fun a => (f a).map g) = (l.mapM f).map (·.map g) := by
  induction l with
  | nil => rfl
  | cons a l ih =>
    rw [List.mapM_cons, List.mapM_cons, ih]
    cases f a <;> cases l.mapM f <;> rfl

theorem selectRows_map {α β : Type} (f : α → β) (l : List α) (idx : List Nat) :
    selectRows (l.map f) idx = (selectRows l idx).map (·.map f) := by
  unfold selectRows
  rw [← mapM_map_option]
  congr 1
  funext i
  simp

theorem filterMeshGroups_transport (φ : N → N') (ψ : P → P') (c : A → B) (m : MMesh N P A) (sel : List Nat) :
    filterMeshGroups (m.transport φ ψ c) sel =
      (filterMeshGroups m sel).map fun r => (r.1.map (ElGroup.mapNodes φ), r.2) := by
  have h1 : ((m.transport φ ψ c).groups.zipIdx.mapM fun gi =>
      selectRows gi.1.vertexIndices (filteredElements (m.transport φ ψ c).sizes sel gi.2)) =
      m.groups.zipIdx.mapM fun gi => selectRows gi.1.vertexIndices (filteredElements m.sizes sel gi.2) := by
    rw [transport_sizes]
    simp only [MMesh.transport, List.zipIdx_map, List.mapM_map]
    rfl
  have h2 : ((m.transport φ ψ c).groups.zipIdx.mapM fun gi =>
      selectRows gi.1.nodes (filteredElements (m.transport φ ψ c).sizes sel gi.2)) =
      (m.groups.zipIdx.mapM fun gi => selectRows gi.1.nodes (filteredElements m.sizes sel gi.2)).map
        (·.map (·.map φ)) := by
    rw [transport_sizes, ← mapM_map_option]
    simp only [MMesh.transport, List.zipIdx_map, List.mapM_map]
    congr 1
    funext gi
    exact selectRows_map φ _ _
  unfold filterMeshGroups
  rw [h1, h2]
  cases m.groups.zipIdx.mapM fun gi => selectRows gi.1.vertexIndices (filteredElements m.sizes sel gi.2) with
  | none => rfl
  | some rows =>
    cases m.groups.zipIdx.mapM fun gi => selectRows gi.1.nodes (filteredElements m.sizes sel gi.2) with
    | none => rfl
    | some nodes =>
      simp only [Option.bind_eq_bind, Option.bind_some, Option.map_some, Option.pure_def, Option.some.injEq,
        Prod.mk.injEq, and_true]
      simp only [MMesh.transport, List.map_map]
      apply List.ext_getElem? fun i => ?_
      simp only [List.getElem?_map, List.zip, List.getElem?_zipWith]
      cases m.groups[i]? <;> cases rows[i]? <;> cases nodes[i]? <;> simp [ElGroup.mapNodes]

theorem bdry_mapAff (c : A → B) (fg : Fag A) : (fg.mapAff c).bdry? = fg.bdry? := by cases fg <;> rfl

theorem bdrys_mapAff (c : A → B) (l : List (Fag A)) :
    (l.map (Fag.mapAff c)).filterMap Fag.bdry? = l.filterMap Fag.bdry? := by
  rw [List.filterMap_map]
  apply List.filterMap_congr
  intro fg _
  exact bdry_mapAff c fg

theorem completeGroup_mapAff (c : A → B) (i : Nat) (l : List (Fag A)) :
    completeGroup i (l.map (Fag.mapAff c)) = (completeGroup i l).map (Fag.mapAff c) := by
  unfold completeGroup
  simp only [bdrys_mapAff, List.map_append]
  congr 1
  · congr 1
    · congr 1
      split <;> rfl
    · split <;> rfl
  · split <;> rfl

theorem completeFacial_mapAff (c : A → B) (l : List (List (Fag A))) :
    completeFacial (l.map (·.map (Fag.mapAff c))) = (completeFacial l).map (·.map (Fag.mapAff c)) := by
  unfold completeFacial
  simp only [List.zipIdx_map, List.map_map]
  apply List.map_congr_left
  intro p _
  exact completeGroup_mapAff c p.2 p.1

theorem connectedParts_transport (φ : N → N') (ψ : P → P') (c : A → B) (m : MMesh N P A) (parts : Parts)
    (table : List (Option (Nat × Nat))) (self : Nat) :
    connectedParts (m.transport φ ψ c) parts table self = connectedParts m parts table self := by
  have hr : ∀ i j, connectedRow (m.transport φ ψ c) table self i j = connectedRow m table self i j := by
    intro i j; funext r; unfold connectedRow; rw [transport_baseOf]
  unfold connectedParts
  simp only [hr]
  simp only [MMesh.transport, List.zipIdx_map, List.flatMap_map, Prod.map_fst, Prod.map_snd, id]
  congr 1
  funext pi
  congr 1
  apply propext
  simp only [List.mem_flatMap]
  constructor
  · rintro ⟨li, hli, fg, hfg, h⟩
    refine ⟨li, hli, fg, hfg, ?_⟩
    cases fg <;> exact h
  · rintro ⟨li, hli, fg, hfg, h⟩
    refine ⟨li, hli, fg, hfg, ?_⟩
    cases fg <;> exact h

theorem selfToSelf_transport (φ : N → N') (ψ : P → P') (c : A → B) (m : MMesh N P A)
    (table : List (Option (Nat × Nat))) (self : Nat) (base : Nat → Nat) (i : Nat) (l : List (Fag A)) :
    selfToSelf (m.transport φ ψ c) table self base i (l.map (Fag.mapAff c)) =
      (selfToSelf m table self base i l).map (Fag.mapAff c) := by
  have hr : ∀ i j, selfRow (m.transport φ ψ c) table self base i j = selfRow m table self base i j := by
    intro i j; funext r; unfold selfRow; rw [transport_baseOf]
  unfold selfToSelf
  rw [List.filterMap_map, List.map_filterMap]
  apply List.filterMap_congr
  intro fg _
  cases fg with
  | interior a b rows aff =>
    simp only [Function.comp_apply, Fag.mapAff, hr]
    split <;> rfl
  | boundary => rfl
  | interPart => rfl

theorem selfToOther_transport (φ : N → N') (ψ : P → P') (c : A → B) (m : MMesh N P A)
    (table : List (Option (Nat × Nat))) (self : Nat) (base : Nat → Nat) (conn : List (Nat × Nat)) (i : Nat)
    (l : List (Fag A)) :
    selfToOther (m.transport φ ψ c) table self base conn i (l.map (Fag.mapAff c)) =
      (selfToOther m table self base conn i l).map (Fag.mapAff c) := by
  have hr : ∀ i j q, otherRow (m.transport φ ψ c) table self base i j q = otherRow m table self base i j q := by
    intro i j q; funext r; unfold otherRow; rw [transport_baseOf]
  unfold selfToOther
  rw [List.flatMap_map, List.map_flatMap]
  congr 1
  funext fg
  cases fg with
  | interior a b rows aff =>
    simp only [Fag.mapAff, hr, List.map_filterMap]
    congr 1
    funext q
    split <;> rfl
  | boundary => rfl
  | interPart => rfl

theorem partBoundaryGroups_transport (φ : N → N') (ψ : P → P') (c : A → B) (m : MMesh N P A)
    (table : List (Option (Nat × Nat))) (self : Nat) (base : Nat → Nat) (i : Nat) (l : List (Fag A)) :
    partBoundaryGroups (m.transport φ ψ c) table self base i (l.map (Fag.mapAff c)) =
      (partBoundaryGroups m table self base i l).map (Fag.mapAff c) := by
  have hr : ∀ i, bdryRow (m.transport φ ψ c) table self base i = bdryRow m table self base i := by
    intro i; funext r; unfold bdryRow; rw [transport_baseOf]
  unfold partBoundaryGroups
  rw [bdrys_mapAff, List.map_map]
  simp only [hr]
  rfl

/-- Taking out a part and changing nodes, vertices and adjacency maps can be exchanged. -/
theorem getMeshPart_transport (φ : N → N') (ψ : P → P') (c : A → B) (m : MMesh N P A) (parts : Parts) (pid : Nat) :
    getMeshPart (m.transport φ ψ c) parts pid = (getMeshPart m parts pid).map (MMesh.transport φ ψ c) := by
  unfold getMeshPart
  simp only [transport_sizes]
  split
  · rfl
  split
  · rfl
  split
  · rfl
  cases parts.zipIdx.find? fun pi => pi.1.1 == pid with
  | none => rfl
  | some x =>
    obtain ⟨⟨q, sel⟩, self⟩ := x
    simp only [filterMeshGroups_transport]
    cases filterMeshGroups m sel with
    | none => rfl
    | some r =>
      obtain ⟨gs, req⟩ := r
      simp only [Option.map_some]
      rw [show (m.transport φ ψ c).vertices = m.vertices.map ψ from rfl, selectRows_map]
      cases selectRows m.vertices req with
      | none => rfl
      | some vs =>
        simp only [Option.map_some, mapNodes_sizes, Except.map, MMesh.transport,
          Except.ok.injEq, MMesh.mk.injEq, true_and]
        rw [← completeFacial_mapAff]
        congr 1
        simp only [List.zipIdx_map, List.map_map]
        apply List.map_congr_left
        intro li _
        simp only [Function.comp_apply, Prod.map_fst, Prod.map_snd, id, List.map_append]
        rw [← selfToSelf_transport φ ψ c, ← selfToOther_transport φ ψ c, ← partBoundaryGroups_transport φ ψ c,
          ← connectedParts_transport φ ψ c]
        rfl

theorem partitionMesh_transport (φ : N → N') (ψ : P → P') (c : A → B) (m : MMesh N P A) (parts : Parts)
    (ret : Option (List Nat)) :
    partitionMesh (m.transport φ ψ c) parts ret =
      (partitionMesh m parts ret).map (·.map fun p => (p.1, p.2.transport φ ψ c)) := by
  unfold partitionMesh
  generalize ret.getD (parts.map Prod.fst) = l
  induction l with
  | nil => rfl
  | cons a l ih =>
    rw [List.mapM_cons, List.mapM_cons, ih, getMeshPart_transport]
    cases getMeshPart m parts a with
    | error e => rfl
    | ok p =>
      generalize (l.mapM fun pid => do
        let part ← getMeshPart m parts pid
        pure (pid, part) : Except PartErr (List (Nat × MMesh N P A))) = r
      cases r <;> rfl

/-- A mesh with other nodes, vertices and adjacency maps. (Specification or proof vocabulary, no code.) -/
def FMesh.transport (φ : N → N') (ψ : P → P') (c : A → B) (m : FMesh N P A) : FMesh N' P' B :=
  ⟨m.ambientDim, m.vertices.map (·.map ψ), m.groups.map (ElGroup.mapNodes φ), ⟨m.lazy.conforming, m.lazy.nodal,
    match m.lazy.facial with
    | .missing => .missing
    | .disabled => .disabled
    | .data fags => .data (fags.map (·.map (Fag.mapAff c)))⟩⟩

theorem transport_asMesh (φ : N → N') (ψ : P → P') (c : A → B) (m : MMesh N P A) (dim : Nat) (cf : Option Bool)
    (nd : Slot (List Nat × List Nat)) :
    (m.asMesh dim cf nd).transport φ ψ c = (m.transport φ ψ c).asMesh dim cf nd := rfl

theorem asMesh_inj {m m' : MMesh N P A} {dim : Nat} {cf : Option Bool} {nd : Slot (List Nat × List Nat)}
    (h : m.asMesh dim cf nd = m'.asMesh dim cf nd) : m = m' := by
  obtain ⟨v, g, f⟩ := m
  obtain ⟨v', g', f'⟩ := m'
  simp only [MMesh.asMesh, FMesh.mk.injEq, Option.some.injEq, LazyMesh.mk.injEq, Slot.data.injEq, true_and] at h
  obtain ⟨rfl, rfl, rfl⟩ := h
  rfl

theorem mapAff_id : (Fag.mapAff (fun a : A => a)) = id := by
  funext fg; cases fg <;> rfl

theorem mapNodes_id : (ElGroup.mapNodes fun n : N => n) = id := by
  funext g; simp [ElGroup.mapNodes]

theorem FMesh.transport_id (m : FMesh N P A) : m.transport (fun n => n) (fun p => p) (fun a => a) = m := by
  obtain ⟨d, v, g, ⟨cf, nd, fc⟩⟩ := m
  simp only [FMesh.transport, mapAff_id, mapNodes_id, List.map_id', List.map_id]
  cases v <;> cases fc <;> simp

theorem mergeGroups_transport (φ : N → N') (gss : List (List (ElGroup N))) (bases : List Nat) :
    mergeGroups (gss.map (·.map (ElGroup.mapNodes φ))) bases = (mergeGroups gss bases).map (ElGroup.mapNodes φ) := by
  unfold mergeGroups
  induction gss generalizing bases with
  | nil => rfl
  | cons gs gss ih =>
    cases bases with
    | nil => rfl
    | cons b bases =>
      simp only [List.map_cons, List.zip_cons_cons, List.flatMap_cons, List.map_append, ih]
      simp [Function.comp_def, shiftGroup, ElGroup.mapNodes]

theorem mergeSingle_transport (φ : N → N') (gss : List (List (ElGroup N))) (bases : List Nat) :
    mergeSingle (gss.map (·.map (ElGroup.mapNodes φ))) bases =
      (mergeSingle gss bases).map (·.map (ElGroup.mapNodes φ)) := by
  unfold mergeSingle
  rw [mergeGroups_transport]
  have hf : (gss.map (·.map (ElGroup.mapNodes φ))).flatten = gss.flatten.map (ElGroup.mapNodes φ) := by
    rw [List.map_flatten]
  rw [hf]
  cases gss.flatten with
  | nil => rfl
  | cons ref rest =>
    simp only [List.map_cons]
    have : ((rest.map (ElGroup.mapNodes φ)).all fun g => g.kind == (ref.mapNodes φ).kind) =
        rest.all fun g => g.kind == ref.kind := by
      rw [List.all_map]; rfl
    rw [this]
    split
    · simp [ElGroup.mapNodes, List.flatMap_map, List.map_flatMap]
    · rfl

theorem mapM_vertices_transport (φ : N → N') (ψ : P → P') (c : A → B) (ms : List (FMesh N P A)) :
    (ms.map (FMesh.transport φ ψ c)).mapM FMesh.vertices = (ms.mapM FMesh.vertices).map (·.map (·.map ψ)) := by
  rw [List.mapM_map, ← mapM_map_option]
  rfl

theorem mergeDisjoint_transport (φ : N → N') (ψ : P → P') (c : A → B) (ms : List (FMesh N P A)) (single : Bool) :
    mergeDisjoint (ms.map (FMesh.transport φ ψ c)) single =
      (mergeDisjoint ms single).map (FMesh.transport φ ψ c) := by
  cases ms with
  | nil => rfl
  | cons m0 rest =>
    simp only [mergeDisjoint, List.map_cons]
    rw [← List.map_cons, mapM_vertices_transport]
    have h1 : ((rest.map (FMesh.transport φ ψ c)).any fun m => m.ambientDim != (m0.transport φ ψ c).ambientDim) =
        rest.any fun m => m.ambientDim != m0.ambientDim := by
      rw [List.any_map]; rfl
    rw [h1]
    split
    · rfl
    cases (m0 :: rest).mapM FMesh.vertices with
    | none => rfl
    | some vss =>
      simp only [Option.map_some, List.map_map]
      have h2 : ((m0.transport φ ψ c).groups :: rest.map (FMesh.groups ∘ FMesh.transport φ ψ c)) =
          (m0.groups :: rest.map FMesh.groups).map (·.map (ElGroup.mapNodes φ)) := by
        rw [List.map_cons, List.map_map]; rfl
      have h3 : (((m0 :: rest).map (FMesh.transport φ ψ c)).any fun m => decide (m.lazy.nodal ≠ .missing)) =
          (m0 :: rest).any fun m => decide (m.lazy.nodal ≠ .missing) := by
        rw [List.any_map]; rfl
      have h4 : (((m0 :: rest).map (FMesh.transport φ ψ c)).any fun m => !(match m.lazy.facial with
                | .missing => true | _ => false)) =
          (m0 :: rest).any fun m => !(match m.lazy.facial with | .missing => true | _ => false) := by
        rw [List.any_map]
        congr 1
        funext m
        simp only [Function.comp_apply, FMesh.transport]
        cases m.lazy.facial <;> rfl
      have h5 : (((m0 :: rest).map (FMesh.transport φ ψ c)).all fun m => m.lazy.conforming == some true) =
          (m0 :: rest).all fun m => m.lazy.conforming == some true := by
        rw [List.all_map]; rfl
      have h6 : vss.map (List.length ∘ List.map ψ) = vss.map List.length := by
        congr 1; funext l; simp
      erw [h4]
      rw [h2, h3, h5, h6, mergeGroups_transport, mergeSingle_transport]
      generalize (m0 :: rest).any (fun m => decide (m.lazy.nodal ≠ .missing)) = bn
      generalize ((m0 :: rest).any fun m => !(match m.lazy.facial with | .missing => true | _ => false)) = bf
      generalize ((m0 :: rest).all fun m => m.lazy.conforming == some true) = bc
      have key : ∀ gs : List (ElGroup N), (⟨(m0.transport φ ψ c).ambientDim,
          some (vss.map fun x => x.map ψ).flatten, gs.map (ElGroup.mapNodes φ),
          LazyMesh.make completeFacial true (some bc) (if bn = true then Slot.disabled else Slot.missing)
            (if bf = true then Slot.disabled else Slot.missing)⟩ : FMesh N' P' B) =
          FMesh.transport φ ψ c ⟨m0.ambientDim, some vss.flatten, gs,
            LazyMesh.make completeFacial true (some bc) (if bn = true then Slot.disabled else Slot.missing)
            (if bf = true then Slot.disabled else Slot.missing)⟩ := by
        intro gs
        cases bn <;> cases bf <;> cases bc <;> simp [FMesh.transport, LazyMesh.make, List.map_flatten]
      cases single with
      | false =>
        simp only [Bool.false_eq_true, if_false, Except.map, key]
      | true =>
        simp only [if_true]
        cases mergeSingle (m0.groups :: rest.map FMesh.groups) (vertBases 0 (vss.map List.length)) with
        | none => rfl
        | some gs => simp only [Option.map_some, Except.map, key]

theorem splitGroup_transport (φ : N → N') (i : Nat) (flags : List Int) (g : ElGroup N) :
    splitGroup i flags (g.mapNodes φ) = (splitGroup i flags g).map fun p => (p.1, p.2.mapNodes φ) := by
  unfold splitGroup
  rw [List.map_map]
  apply List.map_congr_left
  intro flag _
  simp only [ElGroup.mapNodes, Function.comp_apply, Prod.mk.injEq, ElGroup.mk.injEq, true_and]
  simp only [selectFlag, List.map_map, List.zip_map_left, List.filter_map]
  rfl

theorem splitPieces_transport (φ : N → N') (gs : List (ElGroup N)) (flags : List Int) :
    splitPieces (gs.map (ElGroup.mapNodes φ)) flags =
      (splitPieces gs flags).map fun p => (p.1, p.2.mapNodes φ) := by
  unfold splitPieces
  rw [mapNodes_sizes, List.zip_map_right, List.zipIdx_map, List.flatMap_map, List.map_flatMap]
  congr 1
  funext x
  simp only [Prod.map_fst, Prod.map_snd, id, mapNodes_nelements, splitGroup_transport]

theorem splitMeshGroups_transport (φ : N → N') (ψ : P → P') (c : A → B) (m : FMesh N P A) (flags : List Int) :
    splitMeshGroups (m.transport φ ψ c) flags =
      (splitMeshGroups m flags).map fun r => (r.1.transport φ ψ c, r.2) := by
  unfold splitMeshGroups
  have h1 : ((m.transport φ ψ c).groups = []) ↔ m.groups = [] := by simp [FMesh.transport]
  have h2 : (m.transport φ ψ c).groups.map ElGroup.nelements = m.groups.map ElGroup.nelements :=
    mapNodes_sizes φ m.groups
  have h3 : splitPieces (m.transport φ ψ c).groups flags =
      (splitPieces m.groups flags).map fun p => (p.1, p.2.mapNodes φ) := splitPieces_transport φ m.groups flags
  rw [h2]
  split
  · rfl
  by_cases hg : m.groups = []
  · rw [if_pos hg, if_pos (h1.2 hg)]; rfl
  · rw [if_neg hg, if_neg (fun h => hg (h1.1 h)), h3]
    simp only [Option.map_some, Option.some.injEq, Prod.mk.injEq, List.zipIdx_map, List.map_map]
    refine ⟨?_, rfl⟩
    obtain ⟨dim, v, gs, ⟨cf, nd, fc⟩⟩ := m
    simp only [FMesh.transport, FMesh.mk.injEq, true_and, List.map_map]
    refine ⟨rfl, ?_⟩
    rcases v with _ | v <;> rcases cf with _ | (_ | _) <;> rfl

theorem maskSelect_map {α β : Type} (f : α → β) (l : List α) (b : List Bool) :
    maskSelect (l.map f) b = (maskSelect l b).map f := by
  induction l generalizing b with
  | nil => simp [maskSelect]
  | cons a l ih =>
    cases b with
    | nil => simp [maskSelect]
    | cons x b =>
      simp only [List.map_cons, maskSelect, ih]
      split <;> rfl

theorem removeUnused_transport (φ : N → N') (ψ : P → P') (c : A → B) (m : FMesh N P A) :
    removeUnused (m.transport φ ψ c) = (removeUnused m).map (FMesh.transport φ ψ c) := by
  obtain ⟨dim, v, gs, lz⟩ := m
  have ha : allVertexNrs (gs.map (ElGroup.mapNodes φ)) = allVertexNrs gs := by
    simp only [allVertexNrs, List.flatMap_map]; rfl
  have hr : ∀ tbl, (gs.map (ElGroup.mapNodes φ)).mapM (renumberGroup tbl) =
      (gs.mapM (renumberGroup tbl)).map (·.map (ElGroup.mapNodes φ)) := by
    intro tbl
    rw [List.mapM_map, ← mapM_map_option]
    congr 1
    funext g
    simp only [Function.comp_apply, renumberGroup, Option.map_map]
    rfl
  cases v with
  | none => rfl
  | some vs =>
    simp only [removeUnused, FMesh.transport, Option.map_some, ha, hr, List.isEmpty_map, List.length_map,
      maskSelect_map]
    split
    · rfl
    split
    · rfl
    cases gs.mapM (renumberGroup (newVertexIndices (usedFlags vs.length (npUnique (sortNat (allVertexNrs gs)))))) with
    | none => rfl
    | some gs' => rfl


/-! ## Moves -/

section
open Matrix
variable {d : Nat} {K : Type} [Field K]

/-- `affine_map` by some map, or `map_mesh` by some function. (Specification or proof vocabulary, no code.) -/
def IsMove (mv : PMesh d K → Option (PMesh d K)) : Prop :=
  (∃ f, mv = affineMapMesh f) ∨ ∃ g, mv = fun m => (mapMesh g m).toOption

/-- A mesh with points moved by `g`. (Specification or proof vocabulary, no code.) -/
abbrev movePts (g : (Fin d → K) → (Fin d → K)) (c : AffMap d K → AffMap d K) (m : PMesh d K) : PMesh d K :=
  m.transport (·.map g) g c

theorem affine_cases (f : AffMap d K) (m : PMesh d K) :
    (affineMapMesh f m = none ↔ m.lazy.facial = .disabled ∧ (f.matrix ≠ none ∨ f.offset ≠ none)) ∧
    ∀ m', affineMapMesh f m = some m' → m' = movePts f.apply (computeNewMap f) m := by
  obtain ⟨F, b⟩ := f
  obtain ⟨dim, v, gs, ⟨cf, nd, fc⟩⟩ := m
  by_cases h : F = none ∧ b = none
  · obtain ⟨rfl, rfl⟩ := h
    have h1 : (AffMap.mk none none : AffMap d K).apply = fun x => x := rfl
    have h2 : computeNewMap (AffMap.mk none none : AffMap d K) = fun x => x := by
      funext ⟨G, o⟩
      cases G <;> cases o <;> rfl
    refine ⟨by simp [affineMapMesh], fun m' hm => ?_⟩
    simp only [affineMapMesh, Option.some.injEq] at hm
    rw [h1, h2, movePts]
    simp only [List.map_id']
    rw [FMesh.transport_id]
    exact hm.symm
  · have hb : F ≠ none ∨ b ≠ none := by
      by_cases hF : F = none
      · exact Or.inr fun hb => h ⟨hF, hb⟩
      · exact Or.inl hF
    have he : affineMapMesh ⟨F, b⟩ ⟨dim, v, gs, ⟨cf, nd, fc⟩⟩ =
        match fc with
        | .missing => some (movePts (AffMap.mk F b).apply (computeNewMap ⟨F, b⟩) ⟨dim, v, gs, ⟨cf, nd, fc⟩⟩)
        | .disabled => none
        | .data _ => some (movePts (AffMap.mk F b).apply (computeNewMap ⟨F, b⟩) ⟨dim, v, gs, ⟨cf, nd, fc⟩⟩) := by
      cases F <;> cases b <;> first | exact absurd ⟨rfl, rfl⟩ h | (cases fc <;> rfl)
    rw [he]
    cases fc with
    | missing => exact ⟨by simp, fun m' hm => (Option.some.inj hm).symm⟩
    | disabled => exact ⟨by simp [hb], fun m' hm => by cases hm⟩
    | data fags => exact ⟨by simp, fun m' hm => (Option.some.inj hm).symm⟩

omit [Field K] in
theorem mapMesh_cases (g : (Fin d → K) → (Fin d → K)) (m m' : PMesh d K) (h : mapMesh g m = .ok m') :
    m' = movePts g (fun a => a) m := by
  obtain ⟨h1, h2, h3⟩ := (C53_map_mesh g m).1 m' h
  have hd : m'.ambientDim = m.ambientDim := by
    unfold mapMesh at h
    split at h
    · cases h; rfl
    · cases h
    · split at h
      · cases h
      · cases h; rfl
  obtain ⟨dim, v, gs, ⟨cf, nd, fc⟩⟩ := m
  obtain ⟨dim', v', gs', ⟨cf', nd', fc'⟩⟩ := m'
  simp only at h1 h2 h3 hd
  subst h1 h2 hd
  simp only [LazyMesh.mk.injEq] at h3
  obtain ⟨rfl, rfl, rfl⟩ := h3
  simp only [movePts, FMesh.transport, mapAff_id, List.map_id, List.map_id']
  congr 1
  cases fc' <;> rfl

/-- What is needed to exchange a move with something else. (Specification or proof vocabulary, no code.) -/
structure MoveFacts (mv : PMesh d K → Option (PMesh d K)) (g : (Fin d → K) → (Fin d → K))
    (c : AffMap d K → AffMap d K) : Prop where
  eq : ∀ m m', mv m = some m' → m' = movePts g c m
  missing : ∀ m, m.lazy.facial = .missing → (mv m).isSome
  lazy : ∀ m u, u.lazy = m.lazy → (mv m).isSome → (mv u).isSome
  part : ∀ (m : MMesh (List (Fin d → K)) (Fin d → K) (AffMap d K)) (dim dim' : Nat) (cf cf' : Option Bool)
    (nd nd' : Slot (List Nat × List Nat)) (parts : Parts) (pid : Nat) part, (mv (m.asMesh dim cf nd)).isSome →
    getMeshPart m parts pid = .ok part → (mv (part.asMesh dim' cf' nd')).isSome

omit [Field K] in
theorem mapAff_const {l : List (List (Fag (AffMap d K)))} :
    l.map (·.map (Fag.mapAff fun _ => AffMap.mk none none)) = l ↔
      ∀ x ∈ l, ∀ fg ∈ x, ∀ a, fg.aff? = some a → a.matrix = none ∧ a.offset = none := by
  constructor
  · intro h x hx fg hfg a ha
    have h1 : ∀ y ∈ l.map (·.map (Fag.mapAff fun _ => (AffMap.mk none none : AffMap d K))), ∀ fg ∈ y, ∀ a,
        fg.aff? = some a → a.matrix = none ∧ a.offset = none := by
      intro y hy fg hfg a ha
      obtain ⟨z, -, rfl⟩ := List.mem_map.1 hy
      obtain ⟨w, -, rfl⟩ := List.mem_map.1 hfg
      cases w <;> simp only [Fag.mapAff, Fag.aff?, Option.some.injEq, reduceCtorEq] at ha <;> subst ha <;>
        exact ⟨rfl, rfl⟩
    rw [h] at h1
    exact h1 x hx fg hfg a ha
  · intro h
    conv_rhs => rw [← List.map_id l]
    apply List.map_congr_left
    intro x hx
    conv_rhs => rw [id, ← List.map_id x]
    apply List.map_congr_left
    intro fg hfg
    cases fg with
    | interior i j rows a =>
      obtain ⟨G, o⟩ := a
      obtain ⟨h1, h2⟩ := h x hx _ hfg _ rfl
      simp only at h1 h2
      subst h1 h2; rfl
    | boundary i t fs => rfl
    | interPart i t p rows a =>
      obtain ⟨G, o⟩ := a
      obtain ⟨h1, h2⟩ := h x hx _ hfg _ rfl
      simp only at h1 h2
      subst h1 h2; rfl

omit [Field K] in
theorem mapMesh_isSome (g : (Fin d → K) → (Fin d → K)) (m : PMesh d K) :
    (mapMesh g m).toOption.isSome ↔ m.lazy.facial ≠ .disabled ∧ ∀ fags, m.lazy.facial = .data fags →
      ∀ x ∈ fags, ∀ fg ∈ x, ∀ a, fg.aff? = some a → a.matrix = none ∧ a.offset = none := by
  obtain ⟨-, h2, h3⟩ := C53_map_mesh g m
  simp only [← Fag.aff?_iff] at h2
  cases h : mapMesh g m with
  | ok m' =>
    rw [h] at h2 h3
    simp only [reduceCtorEq, false_iff] at h2 h3
    simp only [Except.toOption, Option.isSome_some, true_iff]
    refine ⟨h3, fun fags hf x hx fg hfg a ha => ?_⟩
    by_contra hc
    exact h2 ⟨fags, hf, x, hx, fg, hfg, a, ha, not_and_or.1 hc⟩
  | error e =>
    rw [h] at h2 h3
    simp only [Except.toOption, Option.isSome_none, Bool.false_eq_true, false_iff]
    rintro ⟨h4, h5⟩
    cases e with
    | unavailable => exact h4 (h3.1 rfl)
    | hasAdjMaps =>
      obtain ⟨fags, hf, x, hx, fg, hfg, a, ha, hc⟩ := h2.1 rfl
      obtain ⟨a1, a2⟩ := h5 fags hf x hx fg hfg a ha
      exact hc.elim (fun h => h a1) fun h => h a2

theorem isMove_facts {mv : PMesh d K → Option (PMesh d K)} (h : IsMove mv) : ∃ g c, MoveFacts mv g c := by
  rcases h with ⟨f, rfl⟩ | ⟨g, rfl⟩
  · refine ⟨f.apply, computeNewMap f, fun m => (affine_cases f m).2, fun m hm => ?_, fun m u hl hm => ?_,
      fun m dim dim' cf cf' nd nd' parts pid part _ _ => ?_⟩
    · rw [Option.isSome_iff_ne_none, ne_eq, (affine_cases f m).1, hm]; simp
    · rw [Option.isSome_iff_ne_none, ne_eq, (affine_cases f _).1] at hm ⊢
      rwa [hl]
    · rw [Option.isSome_iff_ne_none, ne_eq, (affine_cases f _).1]; simp [MMesh.asMesh]
  · refine ⟨g, fun a => a, fun m m' hm => ?_, fun m hm => ?_, fun m u hl hm => ?_,
      fun m dim dim' cf cf' nd nd' parts pid part hm hp => ?_⟩
    · cases h : mapMesh g m with
      | ok r => rw [h] at hm; cases hm; exact mapMesh_cases g m _ h
      | error e => rw [h] at hm; cases hm
    · rw [mapMesh_isSome, hm]; simp
    · rw [mapMesh_isSome] at hm ⊢
      rwa [hl]
    · rw [mapMesh_isSome] at hm ⊢
      refine ⟨by simp [MMesh.asMesh], fun fags hf => ?_⟩
      have h0 := hm.2 m.fags rfl
      rw [← mapAff_const] at h0
      have ht : m.transport (fun n => n) (fun p => p) (fun _ => AffMap.mk none none) = m := by
        obtain ⟨v, gs, fags⟩ := m
        simp only at h0
        simp [MMesh.transport, mapNodes_id, h0]
      have h1 := getMeshPart_transport (fun n => n) (fun p => p) (fun _ => (AffMap.mk none none : AffMap d K)) m parts pid
      rw [ht, hp] at h1
      simp only [Except.map, Except.ok.injEq] at h1
      simp only [MMesh.asMesh, Slot.data.injEq] at hf
      rw [← mapAff_const, ← hf]
      exact (congrArg MMesh.fags h1).symm

omit [Field K] in
theorem isSome_eq {mv : PMesh d K → Option (PMesh d K)} {g : (Fin d → K) → (Fin d → K)}
    {c : AffMap d K → AffMap d K} (hf : MoveFacts mv g c) {m : PMesh d K} (h : (mv m).isSome) :
    mv m = some (movePts g c m) := by
  obtain ⟨m', hm⟩ := Option.isSome_iff_exists.1 h
  rw [hm, hf.eq m m' hm]

/-! ## Properties -/

/-- **C110**: partitioning a moved mesh fails like partitioning the mesh; otherwise it gives the same parts, moved.
All parts can be moved if the mesh can. -/
theorem C110_partition {mv : PMesh d K → Option (PMesh d K)} (hmv : IsMove mv)
    {m m' : MMesh (List (Fin d → K)) (Fin d → K) (AffMap d K)} {dim : Nat} {cf : Option Bool}
    {nd : Slot (List Nat × List Nat)} (h : mv (m.asMesh dim cf nd) = some (m'.asMesh dim cf nd)) (parts : Parts)
    (ret : Option (List Nat)) :
    (∀ e, partitionMesh m' parts ret = .error e ↔ partitionMesh m parts ret = .error e) ∧
    ∀ ps, partitionMesh m parts ret = .ok ps → ∃ ps', partitionMesh m' parts ret = .ok ps' ∧
      List.Forall₂ (fun p p' => p'.1 = p.1 ∧ ∀ dim cf nd, mv (p.2.asMesh dim cf nd) = some (p'.2.asMesh dim cf nd))
        ps ps' := by
  obtain ⟨g, c, hf⟩ := isMove_facts hmv
  have h1 := hf.eq _ _ h
  rw [movePts, transport_asMesh] at h1
  have h2 := asMesh_inj h1
  subst h2
  rw [partitionMesh_transport]
  constructor
  · intro e
    cases partitionMesh m parts ret <;> simp [Except.map]
  · intro ps hps
    rw [hps]
    refine ⟨_, rfl, ?_⟩
    rw [List.forall₂_map_right_iff, List.forall₂_same]
    intro p hp
    refine ⟨rfl, fun dim' cf' nd' => ?_⟩
    have hg : getMeshPart m parts p.1 = .ok p.2 := by
      unfold partitionMesh at hps
      revert hps
      generalize ret.getD (parts.map Prod.fst) = l
      intro hps
      induction l generalizing ps with
      | nil =>
        have : ps = [] := by
          have h3 : (Except.ok [] : Except PartErr (List (Nat × MMesh (List (Fin d → K)) (Fin d → K) (AffMap d K)))) =
            .ok ps := hps
          exact (Except.ok.inj h3).symm
        rw [this] at hp; cases hp
      | cons a l ih =>
        rw [List.mapM_cons] at hps
        cases ha : getMeshPart m parts a with
        | error e => rw [ha] at hps; cases hps
        | ok q =>
          rw [ha] at hps
          cases hl : (l.mapM fun pid => do
              let part ← getMeshPart m parts pid
              pure (pid, part) : Except PartErr (List (Nat × MMesh (List (Fin d → K)) (Fin d → K) (AffMap d K)))) with
          | error e => rw [hl] at hps; cases hps
          | ok r =>
            rw [hl] at hps
            cases hps
            rcases List.mem_cons.1 hp with rfl | hp
            · exact ha
            · exact ih r hp hl
    rw [isSome_eq hf (hf.part m dim dim' cf cf' nd nd' parts p.1 p.2 (by rw [h]; rfl) hg)]
    rfl

/-- **C110**: a mesh with vertices and facial adjacency has them after a move. -/
theorem C110_moved {mv : PMesh d K → Option (PMesh d K)} (hmv : IsMove mv)
    {m : MMesh (List (Fin d → K)) (Fin d → K) (AffMap d K)} {dim : Nat} {cf : Option Bool}
    {nd : Slot (List Nat × List Nat)} {r : PMesh d K} (h : mv (m.asMesh dim cf nd) = some r) :
    ∃ m' : MMesh (List (Fin d → K)) (Fin d → K) (AffMap d K), r = m'.asMesh dim cf nd := by
  obtain ⟨g, c, hf⟩ := isMove_facts hmv
  exact ⟨_, (hf.eq _ _ h).trans (transport_asMesh _ _ _ _ _ _ _)⟩

/-- The mesh as if its facial adjacency had not been looked at. (Specification or proof vocabulary, no code.) -/
def FMesh.fresh (m : FMesh N P A) : FMesh N P A := { m with lazy := { m.lazy with facial := .missing } }

theorem fresh_eq {m : FMesh N P A} (h : m.lazy.facial = .missing) : m.fresh = m := by
  obtain ⟨a, b, e, ⟨cf, nd, fc⟩⟩ := m
  simp only at h
  subst h
  rfl

omit [Field K] in
theorem fresh_move {mv : PMesh d K → Option (PMesh d K)} {g : (Fin d → K) → (Fin d → K)}
    {c : AffMap d K → AffMap d K} (hf : MoveFacts mv g c) (m : PMesh d K) :
    mv m.fresh = some (movePts g c m).fresh := by
  rw [isSome_eq hf (hf.missing m.fresh rfl)]
  rfl

omit [Field K] in
theorem movePts_facial {g : (Fin d → K) → (Fin d → K)} {c : AffMap d K → AffMap d K} {m : PMesh d K}
    (h : m.lazy.facial = .missing ∨ m.lazy.facial = .disabled) : (movePts g c m).lazy = m.lazy := by
  obtain ⟨a, b, e, ⟨cf, nd, fc⟩⟩ := m
  simp only at h
  rcases h with rfl | rfl <;> rfl

theorem merge_facial {ms : List (FMesh N P A)} {single : Bool} {r : FMesh N P A}
    (h : mergeDisjoint ms single = .ok r) :
    (r.lazy.facial = .missing ↔ ∀ m ∈ ms, m.lazy.facial = .missing ∧ m.lazy.conforming = some true) ∧
    (r.lazy.facial = .missing ∨ r.lazy.facial = .disabled) := by
  cases ms with
  | nil => cases h
  | cons m0 rest =>
    simp only [mergeDisjoint] at h
    split at h
    · cases h
    split at h
    · cases h
    split at h
    · cases h
    · simp only [Except.ok.injEq] at h
      subst h
      generalize hb : ((m0 :: rest).any fun m => !(match m.lazy.facial with | .missing => true | _ => false)) = bf
      generalize hc : ((m0 :: rest).all fun m => m.lazy.conforming == some true) = bc
      have h1 : bf = false ↔ ∀ m ∈ m0 :: rest, m.lazy.facial = .missing := by
        rw [← hb, List.any_eq_false]
        constructor
        · intro h m hm
          have := h m hm
          cases hx : m.lazy.facial with
          | missing => rfl
          | disabled => rw [hx] at this; simp at this
          | data f => rw [hx] at this; simp at this
        · intro h m hm
          rw [h m hm]; simp
      have h2 : bc = true ↔ ∀ m ∈ m0 :: rest, m.lazy.conforming = some true := by
        rw [← hc, List.all_eq_true]
        simp
      have h3 : (∀ m ∈ m0 :: rest, m.lazy.facial = .missing ∧ m.lazy.conforming = some true) ↔
          bf = false ∧ bc = true := by
        rw [h1, h2]
        exact ⟨fun h => ⟨fun m hm => (h m hm).1, fun m hm => (h m hm).2⟩, fun h m hm => ⟨h.1 m hm, h.2 m hm⟩⟩
      rw [h3]
      cases bf <;> cases bc <;> simp [LazyMesh.make]

/-- **C110**: merging moved meshes fails like merging the meshes; otherwise it gives the merged mesh, moved. The merged
mesh can be moved if all the meshes are conforming and the adjacency of none was looked at or given. -/
theorem C110_merge {mv : PMesh d K → Option (PMesh d K)} (hmv : IsMove mv) {ms ms' : List (PMesh d K)}
    (h : List.Forall₂ (fun m m' => mv m = some m') ms ms') (single : Bool) :
    (∀ e, mergeDisjoint ms' single = .error e ↔ mergeDisjoint ms single = .error e) ∧
    ∀ r, mergeDisjoint ms single = .ok r → ∃ r', mergeDisjoint ms' single = .ok r' ∧ r'.lazy = r.lazy ∧
      mv r.fresh = some r'.fresh ∧
      ((∀ m ∈ ms, m.lazy.facial = .missing ∧ m.lazy.conforming = some true) → mv r = some r') := by
  obtain ⟨g, c, hf⟩ := isMove_facts hmv
  have h1 : ms' = ms.map (movePts g c) := by
    induction h with
    | nil => rfl
    | cons hm _ ih => rw [List.map_cons, ih, hf.eq _ _ hm]
  subst h1
  rw [mergeDisjoint_transport]
  constructor
  · intro e
    cases mergeDisjoint ms single <;> simp [Except.map]
  · intro r hr
    rw [hr]
    obtain ⟨hm1, hm2⟩ := merge_facial hr
    refine ⟨_, rfl, movePts_facial hm2, fresh_move hf r, fun hall => ?_⟩
    exact isSome_eq hf (hf.missing r (hm1.2 hall))

/-- **C110**: after merging meshes of which one had its facial adjacency computed or given, neither `affine_map` nor
`map_mesh` is possible, although each of the meshes could be moved before. -/
theorem C110_merged_stuck {ms : List (PMesh d K)} {single : Bool} {r : PMesh d K}
    (h : mergeDisjoint ms single = .ok r) {m : PMesh d K} (hm : m ∈ ms) (hd : m.lazy.facial ≠ .missing) :
    (∀ f : AffMap d K, (f.matrix ≠ none ∨ f.offset ≠ none) → affineMapMesh f r = none) ∧
    ∀ g, mapMesh g r = .error .unavailable := by
  obtain ⟨h1, h2⟩ := merge_facial h
  have h3 : r.lazy.facial = .disabled := h2.resolve_left fun h => hd (h1.1 h m hm).1
  exact ⟨fun f hf => (affine_cases f r).1.2 ⟨h3, hf⟩, fun g => (C53_map_mesh g r).2.2.2 h3⟩

/-- **C110**: splitting the groups of a moved mesh gives the split mesh, moved, and the same map of group numbers. The
split mesh can be moved if the mesh has vertices and is conforming. -/
theorem C110_split {mv : PMesh d K → Option (PMesh d K)} (hmv : IsMove mv) {m m' : PMesh d K} (h : mv m = some m')
    (flags : List Int) :
    (splitMeshGroups m' flags = none ↔ splitMeshGroups m flags = none) ∧
    ∀ s mp, splitMeshGroups m flags = some (s, mp) → ∃ s', splitMeshGroups m' flags = some (s', mp) ∧
      s'.lazy = s.lazy ∧ mv s.fresh = some s'.fresh ∧
      (m.vertices ≠ none → m.lazy.conforming = some true → mv s = some s') := by
  obtain ⟨g, c, hf⟩ := isMove_facts hmv
  rw [hf.eq _ _ h, splitMeshGroups_transport]
  refine ⟨by simp, fun s mp hs => ?_⟩
  rw [hs]
  have hl : s.lazy = LazyMesh.make completeFacial m.vertices.isSome m.lazy.conforming .missing .missing := by
    unfold splitMeshGroups at hs
    split at hs
    · cases hs
    split at hs
    · cases hs
    · simp only [Option.some.injEq, Prod.mk.injEq] at hs
      rw [← hs.1]
  have h2 : s.lazy.facial = .missing ∨ s.lazy.facial = .disabled := by
    rw [hl]
    cases m.vertices <;> rcases m.lazy.conforming with _ | (_ | _) <;> simp [LazyMesh.make]
  refine ⟨_, rfl, movePts_facial h2, fresh_move hf s, fun hv hc => ?_⟩
  apply isSome_eq hf (hf.missing s _)
  rw [hl, hc]
  cases hx : m.vertices with
  | none => exact absurd hx hv
  | some v => rfl

/-- **C110**: removing unused vertices of a moved mesh fails like removing those of the mesh; otherwise it gives the
mesh without unused vertices, moved. -/
theorem C110_remove_unused {mv : PMesh d K → Option (PMesh d K)} (hmv : IsMove mv) {m m' : PMesh d K}
    (h : mv m = some m') :
    (∀ e, removeUnused m' = .error e ↔ removeUnused m = .error e) ∧
    ∀ u, removeUnused m = .ok u → ∃ u', removeUnused m' = .ok u' ∧ mv u = some u' := by
  obtain ⟨g, c, hf⟩ := isMove_facts hmv
  rw [hf.eq _ _ h, removeUnused_transport]
  constructor
  · intro e
    cases removeUnused m <;> simp [Except.map]
  · intro u hu
    rw [hu]
    refine ⟨_, rfl, isSome_eq hf (hf.lazy m u ?_ (by rw [h]; rfl))⟩
    unfold removeUnused at hu
    split at hu
    · cases hu
    split at hu
    · cases hu
    simp only at hu
    split at hu
    · cases hu
    split at hu
    · cases hu
    · cases hu; rfl

/-! ### Orientation -/

theorem elemOrient_affineMap (f : AffMap d K) (vs : List (Fin d → K)) (uv : List (List Int)) (row : List Nat) :
    elemOrient (vs.map f.apply) uv row = (elemOrient vs uv row).map ((f.matrix.getD 1).det * ·) := by
  have hp : ∀ k, rowPoint (vs.map f.apply) row k = (rowPoint vs row k).map f.apply := by
    intro k
    simp only [rowPoint]
    cases row[k]? <;> simp
  unfold elemOrient
  simp only [hp]
  cases rowPoint vs row (findVertex uv (List.replicate d (-1))) with
  | none => rfl
  | some p0 =>
    rw [mapM_map_option]
    simp only [Option.map_some, Option.bind_some, Option.map_map]
    cases hps : (List.range d).mapM fun i => rowPoint vs row (findVertex uv ((List.replicate d (-1)).set i 1)) with
    | none => rfl
    | some ps =>
      have hlen : ps.length = d := by rw [(mapM_getElem?_some hps).1, List.length_range]
      simp only [Option.map_some, Option.some.injEq, Function.comp_apply]
      rw [mul_left_comm]
      congr 1
      rw [← Matrix.det_transpose (f.matrix.getD 1), mul_comm, ← Matrix.det_mul]
      congr 1
      ext i j
      have hi : i.1 < ps.length := by rw [hlen]; exact i.2
      simp only [Matrix.of_apply, Matrix.mul_apply, Matrix.transpose_apply, List.getD_eq_getElem?_getD,
        List.getElem?_map, List.getElem?_eq_getElem hi, Option.map_some, Option.getD_some]
      rw [C18_missing_parts, C18_missing_parts]
      simp only [Pi.add_apply, Matrix.mulVec, dotProduct, add_sub_add_right_eq_sub, ← Finset.sum_sub_distrib]
      apply Finset.sum_congr rfl
      intro k _
      ring

theorem orientLoop_affine (f : AffMap d K) (shape : Nat → GShape) (vs : List (Fin d → K)) (tol : Bool) (φ : N → N')
    (gs : List (ElGroup N)) :
    orientLoop shape (vs.map f.apply) tol (gs.map (ElGroup.mapNodes φ)) =
      (orientLoop shape vs tol gs).map (·.map (·.map ((f.matrix.getD 1).det * ·))) := by
  induction gs with
  | nil => rfl
  | cons g gs ih =>
    have hg : groupOrient shape (vs.map f.apply) (g.mapNodes φ) =
        (groupOrient shape vs g).map (·.map ((f.matrix.getD 1).det * ·)) := by
      unfold groupOrient
      have hk : (g.mapNodes φ).kind = g.kind := rfl
      have hm : ∀ uv, (g.mapNodes φ).vertexIndices.mapM (elemOrient (vs.map f.apply) uv) =
          (g.vertexIndices.mapM (elemOrient vs uv)).map (·.map ((f.matrix.getD 1).det * ·)) := by
        intro uv
        rw [← mapM_map_option]
        congr 1
        funext row
        exact elemOrient_affineMap f vs uv row
      rw [hk]
      cases shape g.kind with
      | other => rfl
      | simplex n =>
        simp only [hm]
        split
        · rfl
        split
        · rfl
        cases g.vertexIndices.mapM (elemOrient vs (unitVerts (.simplex n))) <;> rfl
      | tensor uv =>
        simp only [hm]
        split
        · rfl
        split
        · rfl
        cases g.vertexIndices.mapM (elemOrient vs (unitVerts (.tensor uv))) <;> rfl
    rw [List.map_cons, orientLoop, orientLoop, hg, ih, mapNodes_nelements]
    cases groupOrient shape vs g with
    | ok l =>
      cases orientLoop shape vs tol gs with
      | ok r => simp [Except.map, Function.comp_def]
      | error e => rfl
    | error e =>
      simp only [Except.map]
      split
      · cases orientLoop shape vs tol gs with
        | ok r => simp
        | error e => rfl
      · rfl

/-- **C110**: `affine_map` multiplies the orientation of all elements by the determinant of its matrix; whether
orientations can be found does not change. -/
theorem C110_orientation {f : AffMap d K} {m m' : PMesh d K} (h : affineMapMesh f m = some m')
    (shape : Nat → GShape) (tol : Bool) :
    (∀ e, meshOrient shape tol m' = .error e ↔ meshOrient shape tol m = .error e) ∧
    ∀ l, meshOrient shape tol m = .ok l →
      meshOrient shape tol m' = .ok (l.map (·.map ((f.matrix.getD 1).det * ·))) := by
  rw [(affine_cases f m).2 m' h]
  have : meshOrient shape tol (movePts f.apply (computeNewMap f) m) =
      (meshOrient shape tol m).map (·.map (·.map ((f.matrix.getD 1).det * ·))) := by
    obtain ⟨dim, v, gs, lz⟩ := m
    cases v with
    | none => rfl
    | some vs =>
      simp only [meshOrient, movePts, FMesh.transport, Option.map_some, List.isEmpty_map]
      split
      · rfl
      · exact orientLoop_affine f shape vs tol _ gs
  rw [this]
  constructor
  · intro e
    cases meshOrient shape tol m <;> simp [Except.map]
  · intro l hl
    rw [hl]; rfl

/-- **C110**: `affine_map` by a map with positive determinant keeps the signs of all orientations, one with negative
determinant reverses them. -/
theorem C110_orientation_sign [LinearOrder K] [IsStrictOrderedRing K] {f : AffMap d K} {m m' : PMesh d K}
    (h : affineMapMesh f m = some m') (shape : Nat → GShape) (tol : Bool) {l l' : List (Option K)}
    (hl : meshOrient shape tol m = .ok l) (hl' : meshOrient shape tol m' = .ok l') :
    (0 < (f.matrix.getD 1).det → l'.map negative = l.map negative) ∧
    ((f.matrix.getD 1).det < 0 → ∀ (e : Nat) (x : K), l[e]? = some (some x) →
      ∃ x', l'[e]? = some (some x') ∧ (x' < 0 ↔ 0 < x) ∧ (0 < x' ↔ x < 0)) := by
  have := (C110_orientation h shape tol).2 l hl
  rw [hl'] at this
  cases this
  constructor
  · intro hp
    rw [List.map_map]
    apply List.map_congr_left
    intro x _
    cases x with
    | none => rfl
    | some x =>
      simp only [Function.comp_apply, Option.map_some, negative, decide_eq_decide]
      exact ⟨fun h => by by_contra hx; exact absurd (mul_nonneg hp.le (not_lt.1 hx)) (not_le.2 h),
        fun h => mul_neg_of_pos_of_neg hp h⟩
  · intro hn e x hx
    refine ⟨(f.matrix.getD 1).det * x, by simp [hx], ?_, ?_⟩
    · exact ⟨fun h => by by_contra hc; exact absurd (mul_nonneg_of_nonpos_of_nonpos hn.le (not_lt.1 hc)) (not_le.2 h),
        fun h => mul_neg_of_neg_of_pos hn h⟩
    · exact ⟨fun h => by by_contra hc; exact absurd (mul_nonpos_of_nonpos_of_nonneg hn.le (not_lt.1 hc)) (not_le.2 h),
        fun h => mul_pos_of_neg_of_neg hn h⟩

/-! ## Examples -/

/-- The periodic line of `exPeriodic`. (Example, no code.) -/
def exMoveMesh : MMesh (List (Fin 1 → ℚ)) (Fin 1 → ℚ) (AffMap 1 ℚ) where
  vertices := [![0], ![1], ![2]]
  groups := [⟨0, [[0], [1]], [[0, 1], [1, 2]], [[![0], ![1]], [![1], ![2]]]⟩]
  fags := [[.interior 0 0 [⟨0, 1, 1, 0⟩, ⟨1, 0, 0, 1⟩] ⟨none, none⟩,
    .interior 0 0 [⟨0, 0, 1, 1⟩] ⟨none, some ![2]⟩, .interior 0 0 [⟨1, 1, 0, 0⟩] ⟨none, some ![-2]⟩]]

example : (∃ m' : MMesh (List (Fin 1 → ℚ)) (Fin 1 → ℚ) (AffMap 1 ℚ),
      affineMapMesh ⟨some !![3], some ![1]⟩ (exMoveMesh.asMesh 1 (some true) .missing) =
        some (m'.asMesh 1 (some true) .missing)) ∧
    (partitionMesh exMoveMesh [(0, [0]), (1, [1])] none).toBool = true := by
  constructor
  · obtain ⟨r, hr⟩ := Option.ne_none_iff_exists'.1 (show affineMapMesh ⟨some !![3], some ![1]⟩
      (exMoveMesh.asMesh 1 (some true) .missing) ≠ none by rw [ne_eq, (affine_cases _ _).1]; simp [MMesh.asMesh])
    obtain ⟨m', rfl⟩ := C110_moved (Or.inl ⟨_, rfl⟩) hr
    exact ⟨m', hr⟩
  · decide +kernel

example : (mergeDisjoint [exPeriodic.fresh, exPeriodic.fresh] false).toBool = true ∧
    (mergeDisjoint [exPeriodic, exPeriodic] true).toBool = true ∧
    (splitMeshGroups exPeriodic [4, 7]).isSome = true ∧ (removeUnused exPeriodic).toBool = true := by
  decide +kernel

example : ∃ l, meshOrient (fun _ => .simplex 1) false exPeriodic = .ok l ∧ l.length = 2 ∧
    (affineMapMesh ⟨some !![-3], some ![1]⟩ exPeriodic).isSome = true ∧ (!![(-3 : ℚ)] : Matrix _ _ ℚ).det < 0 := by
  refine ⟨_, rfl, rfl, rfl, ?_⟩
  simp

end

end Meshmode
