import Verif.Mesh.Commute
import Verif.Partition.Props
import Verif.Mesh.MergeProps

/-!
# Orientations follow the elements (C129)

`find_volume_mesh_element_orientations` (meshmode/mesh/processing.py:576-678) applied to the results of
`merge_disjoint_meshes`, `split_mesh_groups`, `partition_mesh` and `remove_unused_vertices` (the same file).  All
definitions are those of the modules imported.
-/
namespace Meshmode

variable {N A K : Type} [Field K] {d : Nat}

/-! ## Specification -/

/-- Groups of this kind can be examined: they have the dimension of the space, or are of an unknown type which is
tolerated. (Specification or proof vocabulary, no code.) -/
def KindFits (shape : Nat → GShape) (tol : Bool) (d kind : Nat) : Prop :=
  (shape kind ≠ .other ∧ (shape kind).dim = d ∧ d ≠ 0) ∨ (tol = true ∧ shape kind = .other)

/-- The orientation of one element; unknown for unknown types. (Specification or proof vocabulary, no code.) -/
def elOrient (shape : Nat → GShape) (vs : List (Fin d → K)) (kind : Nat) (row : List Nat) : Option (Option K) :=
  match shape kind with
  | .other => some none
  | s => (elemOrient vs (unitVerts s) row).map some

/-! ## One element -/

theorem elOrient_other {shape : Nat → GShape} {vs : List (Fin d → K)} {kind : Nat} (h : shape kind = .other)
    (row : List Nat) : elOrient shape vs kind row = some none := by
  unfold elOrient
  rw [h]

theorem elOrient_known {shape : Nat → GShape} {vs : List (Fin d → K)} {kind : Nat} (h : shape kind ≠ .other)
    (row : List Nat) : elOrient shape vs kind row = (elemOrient vs (unitVerts (shape kind)) row).map some := by
  unfold elOrient
  split
  · rename_i h'
    exact absurd h' h
  · rfl

omit [Field K] in
theorem rowPoint_congr {vs vs' : List (Fin d → K)} {row row' : List Nat}
    (h : row'.map (vs'[·]?) = row.map (vs[·]?)) (k : Nat) : rowPoint vs' row' k = rowPoint vs row k := by
  have h1 := congrArg (fun l : List (Option (Fin d → K)) => l[k]?) h
  simp only [List.getElem?_map] at h1
  unfold rowPoint
  cases hr : row[k]? <;> cases hr' : row'[k]? <;> simp_all

theorem elemOrient_congr {vs vs' : List (Fin d → K)} {row row' : List Nat}
    (h : row'.map (vs'[·]?) = row.map (vs[·]?)) (uv : List (List Int)) :
    elemOrient vs' uv row' = elemOrient vs uv row := by
  unfold elemOrient
  simp only [rowPoint_congr h]

theorem elOrient_congr {shape : Nat → GShape} {vs vs' : List (Fin d → K)} {row row' : List Nat}
    (h : row'.map (vs'[·]?) = row.map (vs[·]?)) (kind : Nat) :
    elOrient shape vs' kind row' = elOrient shape vs kind row := by
  unfold elOrient
  simp only [elemOrient_congr h]

/-! ## All elements -/

theorem orientLoop_of {shape : Nat → GShape} {tol : Bool} {vs : List (Fin d → K)} {gs : List (ElGroup N)}
    (hlen : ∀ g ∈ gs, g.vertexIndices.length = g.nelements) (hfit : ∀ g ∈ gs, KindFits shape tol d g.kind)
    {src : Nat → Option K} (hel : ∀ (G I E : Nat) grp row, gs[G]? = some grp → grp.vertexIndices[I]? = some row →
      IsGlobalNr (gs.map ElGroup.nelements) G I E → elOrient shape vs grp.kind row = some (src E)) :
    orientLoop shape vs tol gs = .ok ((List.range (gs.map ElGroup.nelements).sum).map src) := by
  induction gs generalizing src with
  | nil => rfl
  | cons g gs ih =>
    have hrest := ih (fun x hx => hlen x (List.mem_cons_of_mem _ hx)) (fun x hx => hfit x (List.mem_cons_of_mem _ hx))
      (src := fun E => src (g.nelements + E)) (fun G I E grp row h1 h2 h3 => hel (G + 1) I (g.nelements + E) grp row h1 h2
        (by
          obtain ⟨n, a1, a2, rfl⟩ := h3
          exact ⟨n, a1, a2, by simp; omega⟩))
    have h0 : ∀ (I : Nat) row, g.vertexIndices[I]? = some row → elOrient shape vs g.kind row = some (src I) := by
      intro I row hrow
      refine hel 0 I I g row rfl hrow ⟨g.nelements, rfl, ?_, by simp⟩
      rw [← hlen g List.mem_cons_self]
      exact (List.getElem?_eq_some_iff.1 hrow).1
    have hsum : (List.range ((g :: gs).map ElGroup.nelements).sum).map src =
        (List.range g.nelements).map src ++ (List.range (gs.map ElGroup.nelements).sum).map
          fun E => src (g.nelements + E) := by
      rw [List.map_cons, List.sum_cons, List.range_add, List.map_append, List.map_map]
      rfl
    rw [hsum]
    unfold orientLoop
    rw [hrest]
    rcases hfit g List.mem_cons_self with ⟨f1, f2, f3⟩ | ⟨f1, f2⟩
    · have hm : g.vertexIndices.mapM (elemOrient vs (unitVerts (shape g.kind))) =
          some ((List.range g.nelements).map fun I => (src I).getD 0) := by
        obtain ⟨r, hr⟩ := mapM_isSome_of (f := elemOrient vs (unitVerts (shape g.kind))) (l := g.vertexIndices)
          fun row hrow => by
            obtain ⟨I, hI⟩ := List.mem_iff_getElem?.1 hrow
            have := h0 I row hI
            rw [elOrient_known f1, Option.map_eq_some_iff] at this
            obtain ⟨x, hx, _⟩ := this
            exact ⟨x, hx⟩
        obtain ⟨r1, r2⟩ := mapM_getElem?_some hr
        rw [hr]
        congr 1
        refine List.ext_getElem? fun I => ?_
        by_cases hI : I < g.nelements
        · have hI' : I < g.vertexIndices.length := by rw [hlen g List.mem_cons_self]; exact hI
          obtain ⟨b, b1, b2⟩ := r2 I _ (List.getElem?_eq_getElem hI')
          have := h0 I _ (List.getElem?_eq_getElem hI')
          rw [elOrient_known f1, b2, Option.map_some, Option.some.injEq] at this
          rw [b1, List.getElem?_map, List.getElem?_range hI, Option.map_some, ← this]
          rfl
        · rw [List.getElem?_eq_none (by rw [r1, hlen g List.mem_cons_self]; omega),
            List.getElem?_eq_none (by simpa using hI)]
      have hsome : ((List.range g.nelements).map fun I => (src I).getD 0).map some = (List.range g.nelements).map src := by
        rw [List.map_map]
        refine List.map_congr_left fun I hI => ?_
        have hI' : I < g.vertexIndices.length := by rw [hlen g List.mem_cons_self]; exact List.mem_range.1 hI
        have := h0 I _ (List.getElem?_eq_getElem hI')
        rw [elOrient_known f1, Option.map_eq_some_iff] at this
        obtain ⟨x, _, hx⟩ := this
        simp [← hx]
      have hg : groupOrient shape vs g = .ok ((List.range g.nelements).map fun I => (src I).getD 0) := by
        unfold groupOrient
        split
        · rename_i h'
          exact absurd h' f1
        · rw [if_neg (not_not.2 f2), if_neg f3, hm]
      rw [hg]
      simp only [hsome]
    · have hg : groupOrient shape vs g = .error .notImplemented := by
        unfold groupOrient
        rw [f2]
      rw [hg]
      have hrep : List.replicate g.nelements (none : Option K) = (List.range g.nelements).map src := by
        refine List.ext_getElem (by simp) fun I hI1 hI2 => ?_
        have hI' : I < g.vertexIndices.length := by rw [hlen g List.mem_cons_self]; simpa using hI1
        have := h0 I _ (List.getElem?_eq_getElem hI')
        rw [elOrient_other f2, Option.some.injEq] at this
        simp [← this]
      simp only [f1, and_self, if_true, hrep]

theorem meshOrient_of {shape : Nat → GShape} {tol : Bool} {m : FMesh N (Fin d → K) A} {vs : List (Fin d → K)}
    (hv : m.vertices = some vs) (hne : m.groups ≠ []) (hlen : ∀ g ∈ m.groups, g.vertexIndices.length = g.nelements)
    (hfit : ∀ g ∈ m.groups, KindFits shape tol d g.kind) {os : List (Option K)} (hos : os.length = m.size)
    (hel : ∀ (G I E : Nat) grp row, m.groups[G]? = some grp → grp.vertexIndices[I]? = some row →
      IsGlobalNr (m.groups.map ElGroup.nelements) G I E → elOrient shape vs grp.kind row = os[E]?) :
    meshOrient shape tol m = .ok os := by
  unfold meshOrient
  rw [hv]
  simp only
  rw [if_neg (by simpa using hne), orientLoop_of (src := fun E => os.getD E none) hlen hfit]
  · congr 1
    refine List.ext_getElem (by simp [hos, FMesh.size, nelements]) fun i h1 h2 => ?_
    simp [List.getD_eq_getElem?_getD, List.getElem?_eq_getElem h2]
  · intro G I E grp row h1 h2 h3
    rw [hel G I E grp row h1 h2 h3]
    have hE : E < os.length := by
      rw [hos]
      obtain ⟨n, a1, a2, rfl⟩ := h3
      have := List.sum_take_add_sum_drop (m.groups.map ElGroup.nelements) G
      rw [FMesh.size, nelements, ← this]
      obtain ⟨b1, b2⟩ := List.getElem?_eq_some_iff.1 a1
      rw [List.drop_eq_getElem_cons b1, List.sum_cons, b2]
      omega
    simp [List.getD_eq_getElem?_getD, List.getElem?_eq_getElem hE]

theorem meshOrient_values {shape : Nat → GShape} {tol : Bool} {m : FMesh N (Fin d → K) A} {os : List (Option K)}
    (h : meshOrient shape tol m = .ok os) (hlen : ∀ g ∈ m.groups, g.vertexIndices.length = g.nelements) :
    m.groups ≠ [] ∧ os.length = m.size ∧ (∀ g ∈ m.groups, KindFits shape tol d g.kind) ∧ ∃ vs, m.vertices = some vs ∧
      ∀ (G I E : Nat) grp row, m.groups[G]? = some grp → grp.vertexIndices[I]? = some row →
        IsGlobalNr (m.groups.map ElGroup.nelements) G I E → elOrient shape vs grp.kind row = os[E]? := by
  obtain ⟨hne, vs, hv, parts, rfl, hF⟩ := (C55_orientations shape tol m os).1 h
  have hl : parts.map List.length = m.groups.map ElGroup.nelements := by
    clear h hv hne
    generalize m.groups = gs at hF hlen ⊢
    induction hF with
    | nil => rfl
    | cons h1 h2 ih =>
      rw [List.map_cons, List.map_cons, ih fun g hg => hlen g (List.mem_cons_of_mem _ hg)]
      congr 1
      rcases h1 with ⟨_, _, _, h1, _⟩ | ⟨_, _, h1⟩
      · rw [h1, hlen _ List.mem_cons_self]
      · rw [h1, List.length_replicate]
  refine ⟨hne, ?_, ?_, vs, hv, ?_⟩
  · rw [List.length_flatten, hl]
    rfl
  · intro g hg
    obtain ⟨i, hi, rfl⟩ := List.mem_iff_getElem.1 hg
    have := (List.forall₂_iff_get.1 hF).2 i hi (by rw [← (List.forall₂_iff_get.1 hF).1]; exact hi)
    rcases this with ⟨a, b, c, _⟩ | ⟨a, b, _⟩
    · exact .inl ⟨a, b, c⟩
    · exact .inr ⟨a, b⟩
  · intro G I E grp row h1 h2 h3
    obtain ⟨hG, rfl⟩ := List.getElem?_eq_some_iff.1 h1
    have hG' : G < parts.length := by rw [← (List.forall₂_iff_get.1 hF).1]; exact hG
    rw [flatten_getElem? (by rw [hl]; exact h3), List.getElem?_eq_getElem hG', Option.bind_some]
    have := (List.forall₂_iff_get.1 hF).2 G hG hG'
    simp only [List.get_eq_getElem] at this
    rcases this with ⟨a, _, _, _, b⟩ | ⟨_, a, b⟩
    · obtain ⟨o, b1, b2⟩ := b I row h2
      rw [elOrient_known a, b1, b2]
      rfl
    · rw [elOrient_other a, b, List.getElem?_replicate, if_pos]
      rw [← hlen _ (List.getElem_mem hG)]
      exact (List.getElem?_eq_some_iff.1 h2).1

/-! ## Properties -/

theorem globalNr_unique {sizes : List Nat} {g i g' i' e : Nat} (h : IsGlobalNr sizes g i e)
    (h' : IsGlobalNr sizes g' i' e) : g = g' ∧ i = i' := (C01_numbering_bijective sizes _).2 _ _ _ _ h h'

theorem globalNr_size {sizes : List Nat} {g i e : Nat} (h : IsGlobalNr sizes g i e) : e < sizes.sum := by
  obtain ⟨n, a1, a2, rfl⟩ := h
  rw [← List.sum_take_add_sum_drop sizes g]
  obtain ⟨b1, b2⟩ := List.getElem?_eq_some_iff.1 a1
  rw [List.drop_eq_getElem_cons b1, List.sum_cons, b2]
  omega

theorem merged_group_kinds {P : Type} {ms : List (FMesh N P A)} (hok : ∀ m ∈ ms, ∃ vs, m.OK vs) (hgr : ∀ m ∈ ms, m.groups ≠ [])
    {single : Bool} {M : FMesh N P A} (h : mergeDisjoint ms single = .ok M) :
    M.groups ≠ [] ∧ ∀ g' ∈ M.groups, g'.vertexIndices.length = g'.nelements ∧
      ∃ m ∈ ms, ∃ g ∈ m.groups, g'.kind = g.kind := by
  obtain ⟨vss, hv, hverts, _, hg, _⟩ := mergeDisjoint_ok h
  obtain ⟨hlen, hb⟩ := basesOK_merge hv hok
  obtain ⟨hwf, _⟩ := ok_lists hok
  have hsh := mergeGroups_wf hlen hwf
  have hms : ms ≠ [] := by
    rintro rfl
    simp [mergeDisjoint] at h
  cases single with
  | false =>
    simp only [Bool.false_eq_true, if_false, Option.some.injEq] at hg
    refine ⟨?_, fun g' hg' => ?_⟩
    · rw [← hg]
      unfold mergeGroups
      intro h0
      rw [List.flatMap_eq_nil_iff] at h0
      obtain ⟨m0, rest, rfl⟩ := List.exists_cons_of_ne_nil hms
      generalize vertBases 0 (vss.map List.length) = bases at h0 hlen
      match bases, hlen with
      | b :: bases, _ =>
        have := h0 (m0.groups, b) (by simp)
        exact hgr m0 List.mem_cons_self (by simpa using this)
    · rw [← hg] at hg'
      refine ⟨(hsh g' hg').1, ?_⟩
      obtain ⟨mb, h1, h2⟩ := List.mem_flatMap.1 hg'
      obtain ⟨g, h3, rfl⟩ := List.mem_map.1 h2
      obtain ⟨m, hm, h4⟩ := List.mem_map.1 (List.of_mem_zip h1).1
      exact ⟨m, hm, g, h4 ▸ h3, rfl⟩
  | true =>
    simp only [if_true] at hg
    unfold mergeSingle at hg
    split at hg
    · simp at hg
    · rename_i ref rest heq
      split at hg
      · simp only [Option.some.injEq] at hg
        refine ⟨by rw [← hg]; simp, fun g' hg' => ?_⟩
        rw [← hg, List.mem_singleton] at hg'
        subst hg'
        constructor
        · simp only [ElGroup.nelements, List.length_flatMap]
          congr 1
          exact List.map_congr_left fun g hg => (hsh g hg).1
        · have hr : ref ∈ (ms.map FMesh.groups).flatten := by rw [heq]; exact List.mem_cons_self
          obtain ⟨gs, h1, h2⟩ := List.mem_flatten.1 hr
          obtain ⟨m, hm, rfl⟩ := List.mem_map.1 h1
          exact ⟨m, hm, ref, h2, rfl⟩
      · simp at hg

/-- C129: the orientations of a merged mesh are those of the meshes, one after the other. -/
theorem C129_merge {ms : List (FMesh N (Fin d → K) A)} (hok : ∀ m ∈ ms, ∃ vs, m.OK vs) {single : Bool}
    {M : FMesh N (Fin d → K) A} (h : mergeDisjoint ms single = .ok M) {shape : Nat → GShape} {tol : Bool}
    {oss : List (List (Option K))} (hos : List.Forall₂ (fun m os => meshOrient shape tol m = .ok os) ms oss) :
    meshOrient shape tol M = .ok oss.flatten := by
  have hlenm : ∀ m ∈ ms, ∀ g ∈ m.groups, g.vertexIndices.length = g.nelements := fun m hm g hg => by
    obtain ⟨vs, hvs⟩ := hok m hm
    exact (hvs.wf g hg).1
  have hval : ∀ (k : Nat) m, ms[k]? = some m → ∃ os, oss[k]? = some os ∧ meshOrient shape tol m = .ok os := by
    intro k m hm
    obtain ⟨hk, rfl⟩ := List.getElem?_eq_some_iff.1 hm
    have hk' : k < oss.length := by rw [← hos.length_eq]; exact hk
    exact ⟨_, List.getElem?_eq_getElem hk', (List.forall₂_iff_get.1 hos).2 k hk hk'⟩
  have hex : ∀ m ∈ ms, ∃ os, meshOrient shape tol m = .ok os := fun m hm => by
    obtain ⟨k, hk⟩ := List.mem_iff_getElem?.1 hm
    obtain ⟨os, _, h2⟩ := hval k m hk
    exact ⟨os, h2⟩
  have hgr : ∀ m ∈ ms, m.groups ≠ [] := fun m hm => by
    obtain ⟨os, h2⟩ := hex m hm
    exact (meshOrient_values h2 (hlenm m hm)).1
  obtain ⟨hne, hk⟩ := merged_group_kinds hok hgr h
  obtain ⟨c1, c2, _, c4⟩ := C14_merge_elements hok h
  have hls : oss.map List.length = ms.map FMesh.size := by
    refine List.ext_getElem (by simp [hos.length_eq]) fun k h1 h2 => ?_
    rw [List.length_map] at h1 h2
    have := (List.forall₂_iff_get.1 hos).2 k h2 h1
    simp only [List.get_eq_getElem] at this
    simpa using (meshOrient_values this (hlenm _ (List.getElem_mem h2))).2.1
  obtain ⟨vss, _, hverts, _⟩ := mergeDisjoint_ok h
  refine meshOrient_of hverts hne (fun g hg => (hk g hg).1) (fun g hg => ?_) ?_ ?_
  · obtain ⟨_, m, hm, g0, hg0, e⟩ := hk g hg
    obtain ⟨os, h2⟩ := hex m hm
    rw [e]
    exact (meshOrient_values h2 (hlenm m hm)).2.2.1 g0 hg0
  · rw [List.length_flatten, hls]
    refine Nat.le_antisymm (Nat.le_of_not_lt fun hlt => ?_) (Nat.le_of_not_lt fun hlt => ?_)
    · obtain ⟨k, e, hke⟩ := (C01_numbering_bijective (ms.map FMesh.size) M.size).1.1 hlt
      exact absurd ((c1 _).2 ⟨k, e, hke⟩) (Nat.lt_irrefl _)
    · obtain ⟨k, e, hke⟩ := (c1 _).1 hlt
      exact absurd (globalNr_size hke) (Nat.lt_irrefl _)
  · intro G I E grp row h1 h2 h3
    obtain ⟨k, e, hke⟩ := (c1 E).1 (globalNr_size h3)
    have hke' := hke
    obtain ⟨n, hn, hlt, _⟩ := hke'
    rw [List.getElem?_map, Option.map_eq_some_iff] at hn
    obtain ⟨m, hm, rfl⟩ := hn
    obtain ⟨vs, hvs⟩ := hok m (List.mem_of_getElem? hm)
    obtain ⟨g, i, hgi⟩ := (C01_numbering_bijective (m.groups.map ElGroup.nelements) e).1.1 hlt
    have hgi' := hgi
    obtain ⟨n, hn, _, _⟩ := hgi'
    rw [List.getElem?_map, Option.map_eq_some_iff] at hn
    obtain ⟨grp0, hg0, _⟩ := hn
    obtain ⟨G', I', grp', vs', a1, a2, a3, a4, _, _, row0, row', a5, a6, a7⟩ := c4 k m g i e E grp0 vs hm hvs hg0 hgi hke
    obtain ⟨rfl, rfl⟩ := globalNr_unique h3 a1
    rw [h1] at a2
    obtain rfl := Option.some.inj a2
    rw [h2] at a6
    obtain rfl := Option.some.inj a6
    rw [hverts] at a3
    obtain rfl := Option.some.inj a3
    obtain ⟨os, hosk, hom⟩ := hval k m hm
    obtain ⟨_, _, _, vs2, b1, b2⟩ := meshOrient_values hom (hlenm m (List.mem_of_getElem? hm))
    rw [hvs.vertices] at b1
    obtain rfl := Option.some.inj b1
    rw [elOrient_congr a7, a4, b2 g i e grp0 row0 hg0 a5 hgi, flatten_getElem? (by rw [hls]; exact hke), hosk]
    rfl

/-- C129: the orientations of a part are those of its elements in the mesh. -/
theorem C129_part {m : MMesh N (Fin d → K) A} (hlen : ∀ g ∈ m.groups, g.vertexIndices.length = g.nelements)
    {parts : Parts} (hids : (parts.map Prod.fst).Nodup) (hsorted : ∀ p ∈ parts, p.2.Pairwise (· < ·))
    {pid : Nat} {pm : MMesh N (Fin d → K) A} (h : getMeshPart m parts pid = .ok pm) {sel : List Nat}
    (hsel : (pid, sel) ∈ parts) {shape : Nat → GShape} {tol : Bool} {dim dim' : Nat} {cf cf' : Option Bool}
    {nd nd' : Slot (List Nat × List Nat)} {os : List (Option K)}
    (hos : meshOrient shape tol (m.asMesh dim cf nd) = .ok os) :
    meshOrient shape tol (pm.asMesh dim' cf' nd') = .ok (sel.map fun e => os.getD e none) := by
  obtain ⟨hne, hol, hfit, vs, hv, hel⟩ := meshOrient_values hos hlen
  obtain ⟨sel', hsel', s1, s2, s3, s4⟩ := C09_part_elements hids hsorted h
  obtain rfl : sel' = sel := by
    obtain ⟨i, hi⟩ := List.mem_iff_getElem?.1 hsel
    obtain ⟨j, hj⟩ := List.mem_iff_getElem?.1 hsel'
    exact (parts_index_unique hids hj hi).2
  obtain ⟨pidx, sel2, required, hs⟩ := getMeshPart_ok h
  have hf := hs.filterSpec (hs.valid hids hsorted)
  have hgrp : ∀ g' ∈ pm.groups, g'.vertexIndices.length = g'.nelements ∧ ∃ g ∈ m.groups, g'.kind = g.kind := by
    intro g' hg'
    obtain ⟨G, hG⟩ := List.mem_iff_getElem?.1 hg'
    have hGl : G < m.groups.length := by rw [← s2]; exact (List.getElem?_eq_some_iff.1 hG).1
    obtain ⟨grp', a1, a2, _, a3, _⟩ := hf.group G _ (List.getElem?_eq_getElem hGl)
    rw [hG] at a1
    obtain rfl := Option.some.inj a1
    exact ⟨a3, _, List.getElem_mem hGl, a2⟩
  refine meshOrient_of (vs := pm.vertices) rfl ?_ (fun g hg => (hgrp g hg).1) (fun g hg => ?_) ?_ ?_
  · intro h0
    have : pm.groups = [] := h0
    rw [this] at s2
    exact hne (List.length_eq_zero_iff.1 s2.symm)
  · obtain ⟨_, g0, hg0, e⟩ := hgrp g hg
    rw [e]
    exact hfit g0 hg0
  · rw [List.length_map, ← s1]
    rfl
  · intro G I E grp row h1 h2 h3
    have hE : E < sel'.length := by
      rw [← s1]
      exact globalNr_size h3
    obtain ⟨g, i, i', grp0, grp', e1, e2, e3, e4, _⟩ := s4 E _ (List.getElem?_eq_getElem hE)
    obtain ⟨rfl, rfl⟩ := globalNr_unique h3 e2
    obtain ⟨f1, _⟩ := C10_part_keeps_geometry hids hsorted h hsel
    obtain ⟨grp1, grp1', row0, row', d1, d2, d3, d4, d5, _⟩ := f1 G I i ⟨E, _, List.getElem?_eq_getElem hE, e2, e1⟩
    have h1' : pm.groups[G]? = some grp := h1
    rw [h1'] at d2
    obtain rfl := Option.some.inj d2
    rw [h2] at d4
    obtain rfl := Option.some.inj d4
    have hv' : m.vertices = vs := Option.some.inj hv
    rw [hv'] at d5
    obtain ⟨grp'', k1, k2, _⟩ := s3 G grp1 d1
    rw [h1'] at k1
    obtain rfl := Option.some.inj k1
    have hos' : sel'[E] < os.length := by
      rw [hol]
      exact globalNr_size e1
    rw [elOrient_congr d5, k2, hel G i _ grp1 row0 d1 d3 e1, List.getElem?_map, List.getElem?_eq_getElem hE, Option.map_some,
      List.getD_eq_getElem?_getD, List.getElem?_eq_getElem hos', Option.getD_some]

/-- C129: the orientations of a mesh with split groups are those of the elements before; the split mesh needs an
element, since without elements it has no groups. -/
theorem C129_split {m M : FMesh N (Fin d → K) A} (hwf : ∀ g ∈ m.groups, g.WF) {flags : List Int}
    {mp : List ((Nat × Int) × Nat)} (h : splitMeshGroups m flags = some (M, mp)) (hne : 0 < m.size)
    {shape : Nat → GShape} {tol : Bool} {os : List (Option K)} (hos : meshOrient shape tol m = .ok os) :
    ∃ os', meshOrient shape tol M = .ok os' ∧ os'.length = M.size ∧
      ∀ g i G I e E, SplitElem m flags mp g i G I → IsGlobalNr (m.groups.map ElGroup.nelements) g i e →
        IsGlobalNr (M.groups.map ElGroup.nelements) G I E → os'[E]? = os[e]? := by
  obtain ⟨_, hol, hfit, vs, hv, hel⟩ := meshOrient_values hos fun g hg => (hwf g hg).1
  obtain ⟨hfl, _, _, hMv, _⟩ := splitMeshGroups_some h
  obtain ⟨c1, c2, c3, c4⟩ := C15_split_map_exact hwf h
  have hgroup : ∀ (G : Nat) grp', M.groups[G]? = some grp' → ∃ g flag, ((g, flag), G) ∈ mp := by
    intro G grp' hG
    have hGl : G ∈ mp.map Prod.snd := by
      rw [c2]
      exact List.mem_range.2 (List.getElem?_eq_some_iff.1 hG).1
    obtain ⟨⟨⟨g, flag⟩, G'⟩, hmem, rfl⟩ := List.mem_map.1 hGl
    exact ⟨g, flag, hmem⟩
  have hlen : ∀ g' ∈ M.groups, g'.vertexIndices.length = g'.nelements ∧ ∃ g ∈ m.groups, g'.kind = g.kind := by
    intro g' hg'
    obtain ⟨G, hG⟩ := List.mem_iff_getElem?.1 hg'
    obtain ⟨g, flag, hmem⟩ := hgroup G g' hG
    obtain ⟨grp, new, idx, h1, h2, h3, _, _, _, h7, h8, _⟩ := c4 _ _ _ hmem
    rw [hG] at h2
    obtain rfl := Option.some.inj h2
    exact ⟨h8.trans h7.symm, grp, List.mem_of_getElem? h1, h3⟩
  have hsrc : ∀ (G I E : Nat), IsGlobalNr (M.groups.map ElGroup.nelements) G I E → ∃ g i e,
      SplitElem m flags mp g i G I ∧ IsGlobalNr (m.groups.map ElGroup.nelements) g i e ∧
      ∀ grp' row', M.groups[G]? = some grp' → grp'.vertexIndices[I]? = some row' → ∃ grp,
        m.groups[g]? = some grp ∧ grp'.kind = grp.kind ∧ grp.vertexIndices[i]? = some row' := by
    intro G I E hE
    obtain ⟨n, hn, hI, _⟩ := hE
    rw [List.getElem?_map, Option.map_eq_some_iff] at hn
    obtain ⟨grp', hG, rfl⟩ := hn
    obtain ⟨g, flag, hmem⟩ := hgroup G grp' hG
    obtain ⟨grp, new, idx, h1, h2, h3, _, h5, h6, h7, h8, h9⟩ := c4 _ _ _ hmem
    rw [hG] at h2
    obtain rfl := Option.some.inj h2
    have hIx : I < idx.length := by rw [← h7]; exact hI
    obtain ⟨e, he, _⟩ := (h6 idx[I]).1 (List.getElem_mem hIx)
    refine ⟨g, idx[I], e, ⟨flag, idx, hmem, h5, h6, List.getElem?_eq_getElem hIx⟩, he, ?_⟩
    intro grp'' row' hG' hrow
    rw [hG] at hG'
    obtain rfl := Option.some.inj hG'
    exact ⟨grp, h1, h3, by rw [← (h9 _ _ (List.getElem?_eq_getElem hIx)).2]; exact hrow⟩
  have huniq : ∀ g i g' i' G I, SplitElem m flags mp g i G I → SplitElem m flags mp g' i' G I → g = g' ∧ i = i' := by
    rintro g i g' i' G I ⟨flag, idx, hm, hs, hi, hx⟩ ⟨flag', idx', hm', hs', hi', hx'⟩
    have hn : (mp.map Prod.snd).Nodup := by rw [c2]; exact List.nodup_range
    have := List.inj_on_of_nodup_map hn hm hm' rfl
    simp only [Prod.mk.injEq, and_true] at this
    obtain ⟨rfl, rfl⟩ := this
    obtain rfl : idx = idx' := sorted_ext hs hs' fun i => (hi i).trans (hi' i).symm
    rw [hx] at hx'
    exact ⟨rfl, Option.some.inj hx'⟩
  have hall : ∀ E, ∃ e, ∀ g i G I e', SplitElem m flags mp g i G I → IsGlobalNr (m.groups.map ElGroup.nelements) g i e' →
      IsGlobalNr (M.groups.map ElGroup.nelements) G I E → e' = e := by
    intro E
    by_cases hE : E < M.size
    · obtain ⟨G, I, hGI⟩ := (C01_numbering_bijective _ _).1.1 hE
      obtain ⟨g, i, e, a1, a2, _⟩ := hsrc G I E hGI
      refine ⟨e, fun g' i' G' I' e' b1 b2 b3 => ?_⟩
      obtain ⟨rfl, rfl⟩ := globalNr_unique hGI b3
      obtain ⟨rfl, rfl⟩ := huniq _ _ _ _ _ _ a1 b1
      obtain ⟨n, _, _, rfl⟩ := a2
      obtain ⟨n', _, _, rfl⟩ := b2
      rfl
    · exact ⟨0, fun g' i' G' I' e' b1 b2 b3 => absurd (globalNr_size b3) hE⟩
  choose src hsrc' using hall
  have hget : ∀ g i G I e E, SplitElem m flags mp g i G I → IsGlobalNr (m.groups.map ElGroup.nelements) g i e →
      IsGlobalNr (M.groups.map ElGroup.nelements) G I E →
      ((List.range M.size).map fun E => os.getD (src E) none)[E]? = os[e]? := by
    intro g i G I e E h1 h2 h3
    have hE : E < M.size := globalNr_size h3
    have he : e < os.length := by rw [hol]; exact globalNr_size h2
    rw [List.getElem?_map, List.getElem?_range hE, Option.map_some, ← hsrc' E g i G I e h1 h2 h3,
      List.getD_eq_getElem?_getD, List.getElem?_eq_getElem he, Option.getD_some]
  refine ⟨(List.range M.size).map fun E => os.getD (src E) none, ?_, by simp, hget⟩
  refine meshOrient_of (hMv.trans hv) ?_ (fun g hg => (hlen g hg).1) (fun g hg => ?_) (by simp) ?_
  · obtain ⟨g, i, hgi⟩ := (C01_numbering_bijective (m.groups.map ElGroup.nelements) 0).1.1 hne
    have h0 : 0 < flags.length := by rw [hfl]; exact hne
    obtain ⟨G, hG⟩ := (c3 g flags[0]).2 ⟨i, 0, hgi, List.getElem?_eq_getElem h0⟩
    obtain ⟨_, new, _, _, h2, _⟩ := c4 _ _ _ hG
    intro h0
    rw [h0] at h2
    simp at h2
  · obtain ⟨_, g0, hg0, e⟩ := hlen g hg
    rw [e]
    exact hfit g0 hg0
  · intro G I E grp' row' h1 h2 h3
    obtain ⟨g, i, e, a1, a2, a3⟩ := hsrc G I E h3
    obtain ⟨grp, b1, b2, b3⟩ := a3 grp' row' h1 h2
    rw [b2, hel g i e grp row' b1 b3 a2, hget g i G I e E a1 a2 h3]

/-- C129: removing unused vertices does not change the orientations, nor the exceptions. -/
theorem C129_remove_unused {m M : FMesh N (Fin d → K) A} (h : removeUnused m = .ok M) (shape : Nat → GShape) (tol : Bool) :
    meshOrient shape tol M = meshOrient shape tol m := by
  obtain ⟨vs, vs', f, hv, hv', hf, _, hpt, _⟩ := C46_remove_unused h
  unfold meshOrient
  rw [hv, hv', hf]
  simp only
  have hemp : (mapVertexNrs f m.groups).isEmpty = m.groups.isEmpty := by simp [mapVertexNrs]
  rw [hemp]
  split
  · rfl
  · have hu : ∀ g ∈ m.groups, ∀ row ∈ g.vertexIndices, ∀ v ∈ row, vs'[f v]? = vs[v]? :=
      fun g hg row hrow v hv => (hpt v ⟨g, hg, row, hrow, hv⟩).2
    clear hpt hf hv hv' h hemp
    generalize m.groups = gs at hu
    induction gs with
    | nil => rfl
    | cons g gs ih =>
      have hg : groupOrient shape vs' { g with vertexIndices := g.vertexIndices.map fun row => row.map f } =
          groupOrient shape vs g := by
        unfold groupOrient
        have hm : ∀ uv, (g.vertexIndices.map fun row => row.map f).mapM (elemOrient vs' uv) =
            g.vertexIndices.mapM (elemOrient vs uv) := by
          intro uv
          have hrow : ∀ row ∈ g.vertexIndices, elemOrient vs' uv (row.map f) = elemOrient vs uv row := fun row hrow =>
            elemOrient_congr (by
              rw [List.map_map]
              exact List.map_congr_left fun v hv => hu g List.mem_cons_self row hrow v hv) uv
          generalize g.vertexIndices = rows at hrow
          induction rows with
          | nil => rfl
          | cons r rows ih =>
            rw [List.map_cons, List.mapM_cons, List.mapM_cons, hrow r List.mem_cons_self,
              ih fun r hr => hrow r (List.mem_cons_of_mem _ hr)]
        simp only [hm]
      have hih := ih fun x hx => hu x (List.mem_cons_of_mem _ hx)
      show orientLoop shape vs' tol (_ :: mapVertexNrs f gs) = _
      unfold orientLoop
      rw [hih]
      have hg' : groupOrient shape vs' { g with vertexIndices := g.vertexIndices.map (·.map f) } =
        groupOrient shape vs g := hg
      rw [hg']
      rfl

/-! ## Examples -/

/-- Two triangles and a square. (Example, no code.) -/
def exFollow : MMesh Bool (Fin 2 → ℚ) Unit := ⟨exOrientVerts, exOrient.groups, []⟩

example : (∃ os, meshOrient exOrientShape false exOrient = .ok os ∧ os.length = 3) ∧
    (mergeDisjoint [exOrient, exOrient] false).toBool = true ∧ exOrient.OK exOrientVerts := by
  refine ⟨⟨_, rfl, rfl⟩, by decide +kernel, ⟨rfl, ?_, ?_, ?_⟩⟩
  · unfold ElGroup.WF
    decide +kernel
  · decide +kernel
  · decide +kernel

example : (splitMeshGroups exOrient [7, 4, 4]).isSome = true ∧ exOrient.size = 3 ∧ (removeUnused exOrient).toBool = true := by
  decide +kernel

example : (getMeshPart exFollow [(0, [0, 2]), (1, [1])] 0).toBool = true ∧
    (∃ os, meshOrient exOrientShape false (exFollow.asMesh 2 (some true) .missing) = .ok os) :=
  ⟨by decide +kernel, _, rfl⟩

end Meshmode
