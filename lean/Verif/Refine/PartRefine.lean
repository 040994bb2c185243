import Verif.Partition.TwoSteps
import Verif.Refine.Geometry
import Verif.Refine.Uniform

/-!
# Refining a part, and taking a part of a refined mesh (C119)

`RefinerWithoutAdjacency.refine` (meshmode/mesh/refinement/no_adjacency.py:84-259) on a part made by `partition_mesh`
(meshmode/mesh/processing.py:549-570), compared with partitioning the refined mesh.  All functions are modelled in
Partition/Model.lean and Refine/Model.lean; this module adds no model.
-/
namespace Meshmode

variable {N P A : Type}

/-! ## Specification -/

/-- The template of a group depends on the kind of its elements only, and the nodes of the children of an element on
the nodes of this element only. (Specification or proof vocabulary, no code.) -/
def Geo.Local (geo : Geo N P) : Prop :=
  ∀ g g' : ElGroup N, g.kind = g'.kind → g.fvi = g'.fvi → geo.tess g = geo.tess g' ∧
    ∀ (e e' : Nat) x, g.nodes[e]? = some x → g'.nodes[e']? = some x → geo.tn g e = geo.tn g' e'

/-- `pflags` has, for each element of the part made of the elements `sel`, its flag among those of the whole mesh.
(Specification or proof vocabulary, no code.) -/
def PartFlags (sel : List Nat) (flags pflags : List Bool) : Prop :=
  pflags.length = sel.length ∧ ∀ (k e : Nat), sel[k]? = some e → pflags[k]? = flags[e]?

/-- Element `k` of group `g` of the refined mesh is a child of element `e` of this group, by the refiner's records.
(Specification or proof vocabulary, no code.) -/
def Refiner.Child (r' : Refiner N P) (g e k : Nat) : Prop :=
  ∃ t mapping c, r'.records[g]? = some (t, mapping) ∧ mapping[e]? = some c ∧ k ∈ c

/-- `sel'` lists the elements of the refined mesh which are children of the elements listed in `sel`.
(Specification or proof vocabulary, no code.) -/
def ChildrenOf (m m' : MMesh N P A) (r' : Refiner N P) (sel sel' : List Nat) : Prop :=
  ∀ n', n' ∈ sel' ↔ ∃ n g e k, n ∈ sel ∧ IsGlobalNr m.sizes g e n ∧ r'.Child g e k ∧ IsGlobalNr m'.sizes g k n'

/-- A mesh `m` and its refinement `m'` (by the refiner `r`, which becomes `r'`); a part `pm` of `m`, refined (`rp`, which
becomes `rp'`) with the flags of its elements; and the part `qm` of `m'` with the children of the elements of `pm`.
(Specification or proof vocabulary, no code.) -/
structure PartRefined (geo : Geo N P) (m m' : MMesh N P A) (r r' : Refiner N P) (flags : List Bool) (parts : Parts) (p : Nat)
    (pm : MMesh N P A) (sel : List Nat) (rp rp' : Refiner N P) (pflags : List Bool) (parts' : Parts) (q : Nat)
    (qm : MMesh N P A) (sel' : List Nat) : Prop where
  rows : ∀ g ∈ m.groups, g.vertexIndices.length = g.nodes.length
  whole : r.groups = m.groups
  refined : r.refine geo flags = some r'
  result : m'.groups = r'.groups ∧ m'.vertices = r'.vertices
  ids : (parts.map Prod.fst).Nodup
  sorted : ∀ p ∈ parts, p.2.Pairwise (· < ·)
  part : getMeshPart m parts p = .ok pm
  mem : (p, sel) ∈ parts
  partGroups : rp.groups = pm.groups
  sameFlags : PartFlags sel flags pflags
  partRefined : rp.refine geo pflags = some rp'
  ids' : (parts'.map Prod.fst).Nodup
  sorted' : ∀ p ∈ parts', p.2.Pairwise (· < ·)
  part' : getMeshPart m' parts' q = .ok qm
  mem' : (q, sel') ∈ parts'
  children : ChildrenOf m m' r' sel sel'

/-! ## Lemmas -/

theorem mem_filteredElements {sizes sel : List Nat} (hs : sel.Pairwise (· < ·)) (h : ∀ e ∈ sel, e < sizes.sum) {g : Nat}
    (hg : g < sizes.length) (i : Nat) :
    i ∈ filteredElements sizes sel g ↔ i < sizes[g] ∧ (sizes.take g).sum + i ∈ sel := by
  obtain ⟨f1, f2⟩ := filteredElements_spec hs h hg
  constructor
  · intro hi
    obtain ⟨j, hj⟩ := List.mem_iff_getElem?.1 hi
    obtain ⟨h1, _, h3⟩ := f2 j i hj
    exact ⟨h3, List.mem_of_getElem? h1⟩
  · rintro ⟨hlt, hi⟩
    obtain ⟨k, hk⟩ := List.mem_iff_getElem?.1 hi
    have hb := (startOf_block (sizes := sizes) (g := g) hs hk).2 (by
      rw [take_succ_sum (n := sizes[g]) (List.getElem?_eq_getElem hg)]; omega)
    have hj : k - startOf sizes sel g < (filteredElements sizes sel g).length := by omega
    have hji := List.getElem?_eq_getElem hj
    obtain ⟨h1, _, _⟩ := f2 _ _ hji
    rw [show startOf sizes sel g + (k - startOf sizes sel g) = k by omega, hk] at h1
    have h4 : (filteredElements sizes sel g)[k - startOf sizes sel g] = i := by
      have := Option.some.inj h1; omega
    rw [← h4]
    exact List.getElem_mem hj

theorem pairwise_filteredElements {sizes sel : List Nat} (hs : sel.Pairwise (· < ·)) (h : ∀ e ∈ sel, e < sizes.sum)
    {g : Nat} (hg : g < sizes.length) : (filteredElements sizes sel g).Pairwise (· < ·) := by
  obtain ⟨f1, f2⟩ := filteredElements_spec hs h hg
  rw [List.pairwise_iff_getElem]
  intro i j hi hj hij
  obtain ⟨a1, _, _⟩ := f2 i _ (List.getElem?_eq_getElem hi)
  obtain ⟨b1, _, _⟩ := f2 j _ (List.getElem?_eq_getElem hj)
  obtain ⟨a2, a3⟩ := List.getElem?_eq_some_iff.1 a1
  obtain ⟨b2, b3⟩ := List.getElem?_eq_some_iff.1 b1
  have := (List.pairwise_iff_getElem.1 hs) _ _ a2 b2 (by omega)
  omega

/-- The children of elements in order are in order. -/
theorem pairwise_flatMap_mapping {mapping : List (List Nat)} {n n' : Nat} (hm : ExactMapping mapping n n') {F : List Nat}
    (hF : F.Pairwise (· < ·)) : (F.flatMap fun e => mapping.getD e []).Pairwise (· < ·) := by
  have hr : mapping.flatten.Pairwise (· < ·) := by rw [hm.2]; exact List.pairwise_lt_range
  obtain ⟨h1, h2⟩ := List.pairwise_flatten.1 hr
  rw [List.pairwise_flatMap]
  constructor
  · intro e _
    rw [List.getD_eq_getElem?_getD]
    cases hc : mapping[e]? with
    | none => simp
    | some c => exact h1 c (List.mem_of_getElem? hc)
  · refine hF.imp ?_
    intro a b hab x hx y hy
    rw [List.getD_eq_getElem?_getD] at hx hy
    cases hc : mapping[a]? with
    | none => rw [hc] at hx; simp at hx
    | some c =>
      cases hd : mapping[b]? with
      | none => rw [hd] at hy; simp at hy
      | some d =>
        rw [hc] at hx
        rw [hd] at hy
        obtain ⟨c1, c2⟩ := List.getElem?_eq_some_iff.1 hc
        obtain ⟨d1, d2⟩ := List.getElem?_eq_some_iff.1 hd
        have := (List.pairwise_iff_getElem.1 h2) a b c1 d1 hab
        rw [c2, d2] at this
        exact this x hx y hy

theorem filterMap_range_getElem? {α : Type} (l : List α) : (List.range l.length).filterMap (l[·]?) = l := by
  rw [filterMap_eq_flatMap_toList]
  exact flatMap_range_getElem?_toList l

theorem filterMap_getElem?_eq {α : Type} {l l' : List α} {c : List Nat} (h : c.length = l'.length)
    (hc : ∀ (j k : Nat), c[j]? = some k → l[k]? = l'[j]?) : c.filterMap (l[·]?) = l' := by
  have : c.map (l[·]?) = l'.map some := by
    apply List.ext_getElem?
    intro j
    rw [List.getElem?_map, List.getElem?_map]
    by_cases hj : j < l'.length
    · rw [List.getElem?_eq_getElem (h ▸ hj), List.getElem?_eq_getElem hj]
      have := hc j _ (List.getElem?_eq_getElem (h ▸ hj))
      rw [List.getElem?_eq_getElem hj] at this
      simp [this]
    · rw [List.getElem?_eq_none (by omega), List.getElem?_eq_none (by omega)]
      rfl
  calc c.filterMap (l[·]?) = (c.map (l[·]?)).filterMap id := by rw [List.filterMap_map]; rfl
    _ = l' := by rw [this, List.filterMap_map]; simp

/-- What refining does to one group. -/
theorem refine_group {geo : Geo N P} (hgeo : geo.OK) {r r' : Refiner N P}
    (hwf : ∀ g ∈ r.groups, g.vertexIndices.length = g.nodes.length) {flags : List Bool}
    (h : r.refine geo flags = some r') {i : Nat} {g : ElGroup N} (hg : r.groups[i]? = some g) :
    ∃ g' mapping, r'.groups[i]? = some g' ∧ r'.records[i]? = some (geo.tess g, mapping) ∧
      g'.kind = g.kind ∧ g'.fvi = g.fvi ∧ ExactMapping mapping g.nelements g'.nelements ∧
      ∀ (e : Nat) c x f, mapping[e]? = some c → g.nodes[e]? = some x →
        flags[((r.groups.map ElGroup.nelements).take i).sum + e]? = some f →
        c.filterMap (g'.nodes[·]?) = if f then geo.tn g e else [x] := by
  obtain ⟨_, _, _, hall⟩ := C20_refine_elements hgeo hwf h
  obtain ⟨g', mapping, hg', hrec, hex, hel⟩ := hall i g hg
  have hk : g'.kind = g.kind ∧ g'.fvi = g.fvi := by
    unfold Refiner.refine at h
    split at h
    · simp at h
    · rename_i hlen
      have hlen := not_not.1 hlen
      simp only at h
      split at h
      · simp at h
      · rename_i gs table added hgs
        simp only [Option.some.injEq] at h
        subst h
        obtain ⟨f, hf, hfl, _⟩ := refineFlags_getElem? hg hlen
        obtain ⟨tab, ad, g1, s, h3, h4⟩ := (refineGroups_getElem hgs).2 i g f
          (List.getElem?_zip_eq_some.2 ⟨hg, hf⟩)
        simp only at hg'
        rw [h4] at hg'
        obtain rfl := Option.some.inj hg'
        obtain ⟨_, _, h5, h6, _⟩ := refineGroup_spec (hwf g (List.mem_of_getElem? hg)) hfl
          (fun e he => hgeo g e (hfl ▸ (List.getElem?_eq_some_iff.1 he).1)) h3
        exact ⟨h5, h6⟩
  refine ⟨g', mapping, hg', hrec, hk.1, hk.2, hex, ?_⟩
  intro e c x f hc hx hf
  have he : e < g.nelements := by
    rw [← hex.1]
    exact (List.getElem?_eq_some_iff.1 hc).1
  cases f with
  | false =>
    obtain ⟨k, rfl, _, h2⟩ := (hel e c hc).1 hf
    rw [hx] at h2
    simp [h2]
  | true =>
    obtain ⟨h1, h2⟩ := (hel e c hc).2 hf
    rw [if_pos rfl]
    exact filterMap_getElem?_eq (by rw [h1, hgeo g e he]) h2

/-! ## Properties -/

section
variable {geo : Geo N P} {m m' : MMesh N P A} {r r' : Refiner N P} {flags : List Bool} {parts : Parts} {p : Nat}
  {pm : MMesh N P A} {sel : List Nat} {rp rp' : Refiner N P} {pflags : List Bool} {parts' : Parts} {q : Nat}
  {qm : MMesh N P A} {sel' : List Nat}

theorem part_rows {m pm : MMesh N P A} {sel required : List Nat} (hf : FilterSpec m sel pm.groups required) :
    ∀ g ∈ pm.groups, g.vertexIndices.length = g.nodes.length := by
  intro g hg
  obtain ⟨i, hi⟩ := List.mem_iff_getElem?.1 hg
  have hlt : i < m.groups.length := by rw [← hf.length]; exact (List.getElem?_eq_some_iff.1 hi).1
  obtain ⟨grp', h1, _, _, h4, _⟩ := hf.group i _ (List.getElem?_eq_getElem hlt)
  rw [hi] at h1
  obtain rfl := Option.some.inj h1
  exact h4

/-- The elements of the part of the refined mesh, by group. -/
theorem filtered_children
    (H : PartRefined geo m m' r r' flags parts p pm sel rp rp' pflags parts' q qm sel') {g : Nat} {grp grp' : ElGroup N}
    {t : Tess} {mapping : List (List Nat)} (hg : m.groups[g]? = some grp) (hg' : m'.groups[g]? = some grp')
    (hrec : r'.records[g]? = some (t, mapping)) (hex : ExactMapping mapping grp.nelements grp'.nelements) :
    filteredElements m'.sizes sel' g = (filteredElements m.sizes sel g).flatMap fun e => mapping.getD e [] := by
  obtain ⟨_, _, _, _, _, hso, hra⟩ := partSpec_of H.ids H.sorted H.part H.mem
  obtain ⟨_, _, _, _, _, hso', hra'⟩ := partSpec_of H.ids' H.sorted' H.part' H.mem'
  have hs : m.sizes[g]? = some grp.nelements := by rw [sizes_getElem?, hg]; rfl
  have hs' : m'.sizes[g]? = some grp'.nelements := by rw [sizes_getElem?, hg']; rfl
  obtain ⟨hl, hse⟩ := List.getElem?_eq_some_iff.1 hs
  obtain ⟨hl', hse'⟩ := List.getElem?_eq_some_iff.1 hs'
  apply eq_of_sorted (pairwise_filteredElements hso' hra' hl')
    (pairwise_flatMap_mapping hex (pairwise_filteredElements hso hra hl))
  intro k
  rw [mem_filteredElements hso' hra' hl', hse', H.children, List.mem_flatMap]
  constructor
  · rintro ⟨hk, n, g2, e, k2, hn, hge, ⟨t2, map2, c, hr2, hc, hkc⟩, hgk⟩
    obtain ⟨rfl, rfl⟩ := (C01_numbering_bijective m'.sizes _).2 _ _ _ _ hgk ⟨_, hs', hk, rfl⟩
    rw [hrec] at hr2
    obtain ⟨rfl, rfl⟩ := Prod.mk.inj (Option.some.inj hr2)
    obtain ⟨n2, hn2, hen, rfl⟩ := hge
    rw [hs] at hn2
    obtain rfl := Option.some.inj hn2
    refine ⟨e, (mem_filteredElements hso hra hl e).2 ⟨by rw [hse]; exact hen, hn⟩, ?_⟩
    rw [List.getD_eq_getElem?_getD, hc]
    exact hkc
  · rintro ⟨e, he, hk⟩
    obtain ⟨he1, he2⟩ := (mem_filteredElements hso hra hl e).1 he
    rw [List.getD_eq_getElem?_getD] at hk
    cases hc : mapping[e]? with
    | none => rw [hc] at hk; simp at hk
    | some c =>
      rw [hc] at hk
      have hkl : k < grp'.nelements := by
        have : k ∈ mapping.flatten := List.mem_flatten.2 ⟨c, List.mem_of_getElem? hc, hk⟩
        rw [hex.2] at this
        exact List.mem_range.1 this
      exact ⟨hkl, _, g, e, k, he2, ⟨_, hs, hse ▸ he1, rfl⟩, ⟨t, mapping, c, hrec, hc, hk⟩, ⟨_, hs', hkl, rfl⟩⟩

/-- C119: refining a part gives the part of the refined mesh with the children of its elements: the same groups, with
elements of the same kind and with the same nodes, in the same order. -/
theorem C119_elements (hgeo : geo.OK) (hloc : geo.Local)
    (H : PartRefined geo m m' r r' flags parts p pm sel rp rp' pflags parts' q qm sel') :
    qm.groups.map (fun g => (g.kind, g.fvi, g.nodes)) = rp'.groups.map (fun g => (g.kind, g.fvi, g.nodes)) := by
  obtain ⟨_, required, _, _, hf, hso, hra⟩ := partSpec_of H.ids H.sorted H.part H.mem
  obtain ⟨_, required', _, _, hf', hso', hra'⟩ := partSpec_of H.ids' H.sorted' H.part' H.mem'
  have hwf : ∀ g ∈ r.groups, g.vertexIndices.length = g.nodes.length := by rw [H.whole]; exact H.rows
  have hwfp : ∀ g ∈ rp.groups, g.vertexIndices.length = g.nodes.length := by rw [H.partGroups]; exact part_rows hf
  have hlen : m'.groups.length = m.groups.length := by
    rw [H.result.1, (C20_refine_elements hgeo hwf H.refined).1, H.whole]
  have hlenp : rp'.groups.length = m.groups.length := by
    rw [(C20_refine_elements hgeo hwfp H.partRefined).1, H.partGroups, hf.length]
  apply List.ext_getElem?
  intro g
  rw [List.getElem?_map, List.getElem?_map]
  by_cases hg : g < m.groups.length
  · have hgm := List.getElem?_eq_getElem hg
    generalize m.groups[g] = grp at hgm
    obtain ⟨pg, hpg, pk, pf, prow, pel⟩ := hf.group g grp hgm
    obtain ⟨grp', mapping, hg', hrec, k1, f1, hex, hbl⟩ := refine_group hgeo hwf H.refined (i := g) (g := grp)
      (by rw [H.whole]; exact hgm)
    obtain ⟨pg', pmap, hpg', prec, k2, f2, pex, pbl⟩ := refine_group hgeo hwfp H.partRefined (i := g) (g := pg)
      (by rw [H.partGroups]; exact hpg)
    have hgm' : m'.groups[g]? = some grp' := by rw [H.result.1]; exact hg'
    obtain ⟨qg, hqg, qk, qf, qrow, qel⟩ := hf'.group g grp' hgm'
    have hs : m.sizes[g]? = some grp.nelements := by rw [sizes_getElem?, hgm]; rfl
    have hs' : m'.sizes[g]? = some grp'.nelements := by rw [sizes_getElem?, hgm']; rfl
    obtain ⟨hl, hse⟩ := List.getElem?_eq_some_iff.1 hs
    obtain ⟨hl', hse'⟩ := List.getElem?_eq_some_iff.1 hs'
    obtain ⟨e1, e2⟩ := filteredElements_spec hso hra hl
    obtain ⟨e1', e2'⟩ := filteredElements_spec hso' hra' hl'
    have hFl : (filteredElements m.sizes sel g).length = pg.nelements := by
      rw [e1, hf.sizes g pg.nelements (by rw [List.getElem?_map, hpg]; rfl)]
    have hFl' : (filteredElements m'.sizes sel' g).length = qg.nodes.length := by
      rw [e1']
      exact (hf'.sizes g qg.nelements (by rw [List.getElem?_map, hqg]; rfl)).symm
    have hbase : (pm.sizes.take g).sum = startOf m.sizes sel g := by
      unfold MMesh.sizes
      exact sum_take_telescope (startOf m.sizes sel) (fun i => startOf_mono _ _ (by omega))
        (startOf_zero _ _) hf.sizes (by simp [hf.length]; omega)
    have hflt := filtered_children H hgm hgm' hrec hex
    -- the nodes of the part of the refined mesh
    have hq : qg.nodes = (filteredElements m'.sizes sel' g).filterMap (grp'.nodes[·]?) := by
      refine (filterMap_getElem?_eq hFl' ?_).symm
      intro j k hj
      obtain ⟨⟨x, hx1, hx2⟩, _⟩ := qel j k hj
      rw [hx1, hx2]
    -- the nodes of the refined part
    have hp : pg'.nodes = pmap.flatMap fun c => c.filterMap (pg'.nodes[·]?) := by
      conv_lhs => rw [← filterMap_range_getElem? pg'.nodes]
      have : List.range pg'.nodes.length = pmap.flatten := pex.2.symm
      rw [this, ← List.flatMap_id, List.filterMap_flatMap]
      rfl
    have hblocks : (pmap.map fun c => c.filterMap (pg'.nodes[·]?)) =
        (filteredElements m.sizes sel g).map fun e => (mapping.getD e []).filterMap (grp'.nodes[·]?) := by
      apply List.ext_getElem?
      intro i'
      rw [List.getElem?_map, List.getElem?_map]
      by_cases hi : i' < pg.nelements
      · have hc := List.getElem?_eq_getElem (l := pmap) (i := i') (by rw [pex.1]; exact hi)
        have hi2 := List.getElem?_eq_getElem (l := filteredElements m.sizes sel g) (i := i') (by rw [hFl]; exact hi)
        generalize pmap[i']'(by rw [pex.1]; exact hi) = c at hc
        generalize (filteredElements m.sizes sel g)[i']'(by rw [hFl]; exact hi) = i at hi2
        obtain ⟨s1, _, s3⟩ := e2 i' i hi2
        rw [hse] at s3
        have hd := List.getElem?_eq_getElem (l := mapping) (i := i) (by rw [hex.1]; exact s3)
        generalize mapping[i]'(by rw [hex.1]; exact s3) = d at hd
        obtain ⟨⟨x, hx1, hx2⟩, _⟩ := pel i' i hi2
        have hfe := H.sameFlags.2 _ _ s1
        have hlf : flags.length = m.sizes.sum := by
          have := H.refined
          unfold Refiner.refine at this
          split at this
          · simp at this
          · rename_i hh
            rw [not_not.1 hh, H.whole]
            rfl
        have hfi : (m.sizes.take g).sum + i < flags.length := by
          rw [hlf]; exact hra _ (List.mem_of_getElem? s1)
        have hfw := List.getElem?_eq_getElem hfi
        generalize flags[(m.sizes.take g).sum + i] = f at hfw
        rw [hc, hi2]
        simp only [Option.map_some, Option.some.injEq, List.getD_eq_getElem?_getD, hd, Option.getD_some]
        rw [hbl i d x f hd hx2 (by rw [H.whole]; exact hfw), pbl i' c x f hc hx1 (by
          rw [H.partGroups]
          change pflags[(pm.sizes.take g).sum + i']? = _
          rw [hbase, hfe, hfw]),
          (hloc pg grp pk pf).2 i' i x hx1 hx2]
      · rw [List.getElem?_eq_none (by rw [pex.1]; omega), List.getElem?_eq_none (by rw [hFl]; omega)]
        rfl
    rw [hqg, hpg']
    simp only [Option.map_some, Option.some.injEq, Prod.mk.injEq]
    refine ⟨by rw [qk, k1, k2, pk], by rw [qf, f1, f2, pf], ?_⟩
    rw [hq, hp, hflt, List.filterMap_flatMap, List.flatMap_def, List.flatMap_def, hblocks]
  · rw [List.getElem?_eq_none (by rw [hf'.length]; omega), List.getElem?_eq_none (by omega)]

/-- C119: if the whole mesh can be refined, so can the part. -/
theorem C119_defined (hgeo : geo.OK) (hloc : geo.Local) (hids : (parts.map Prod.fst).Nodup)
    (hsorted : ∀ p ∈ parts, p.2.Pairwise (· < ·)) (hpart : getMeshPart m parts p = .ok pm) (hmem : (p, sel) ∈ parts)
    (hfit : RowsFit geo m.groups) (hgr : rp.groups = pm.groups) (hfl : PartFlags sel flags pflags) :
    ∃ rp', rp.refine geo pflags = some rp' := by
  obtain ⟨_, required, _, _, hf, hso, hra⟩ := partSpec_of hids hsorted hpart hmem
  rw [C89_refine_defined hgeo]
  · obtain ⟨sel2, h1, h2, _⟩ := C09_part_elements hids hsorted hpart
    obtain ⟨i, hi⟩ := List.mem_iff_getElem?.1 hmem
    obtain ⟨j, hj⟩ := List.mem_iff_getElem?.1 h1
    obtain ⟨_, rfl⟩ := parts_index_unique hids hi hj
    rw [hfl.1, ← h2, hgr]
    rfl
  · rw [hgr]
    intro g hg
    refine ⟨part_rows hf g hg, ?_⟩
    obtain ⟨i, hi⟩ := List.mem_iff_getElem?.1 hg
    have hlt : i < m.groups.length := by rw [← hf.length]; exact (List.getElem?_eq_some_iff.1 hi).1
    obtain ⟨grp', h1, h2, h3, h4, h5⟩ := hf.group i _ (List.getElem?_eq_getElem hlt)
    rw [hi] at h1
    obtain rfl := Option.some.inj h1
    obtain ⟨_, n, hn, hrow⟩ := hfit _ (List.getElem_mem hlt)
    refine ⟨n, by rw [(hloc g _ h2 h3).1]; exact hn, ?_⟩
    intro row hr
    obtain ⟨k, hk⟩ := List.mem_iff_getElem?.1 hr
    have hil : i < m.sizes.length := by simp [MMesh.sizes]; omega
    obtain ⟨e1, _⟩ := filteredElements_spec hso hra hil
    have hkl : k < (filteredElements m.sizes sel i).length := by
      rw [e1, ← hf.sizes i g.nelements (by rw [List.getElem?_map, hi]; rfl)]
      have := (List.getElem?_eq_some_iff.1 hk).1
      unfold ElGroup.nelements
      omega
    obtain ⟨_, row2, hr2, _, hr3⟩ := h5 k _ (List.getElem?_eq_getElem hkl)
    rw [hk] at hr3
    obtain rfl := Option.some.inj hr3
    rw [List.length_map]
    exact hrow row2 (List.mem_of_getElem? hr2)

/-- C119: the children of the elements of the parts of a mesh are a partition of the refined mesh. -/
theorem C119_parts (hgeo : geo.OK) (hrows : ∀ g ∈ m.groups, g.vertexIndices.length = g.nodes.length)
    (hr : r.groups = m.groups) (href : r.refine geo flags = some r') (hm' : m'.groups = r'.groups)
    (hv : ValidParts (nelements m.sizes) parts) (hids : parts'.map Prod.fst = parts.map Prod.fst)
    (hsorted : ∀ p ∈ parts', p.2.Pairwise (· < ·))
    (hch : ∀ (i : Nat) p p', parts[i]? = some p → parts'[i]? = some p' → ChildrenOf m m' r' p.2 p'.2) :
    ValidParts (nelements m'.sizes) parts' := by
  have hwf : ∀ g ∈ r.groups, g.vertexIndices.length = g.nodes.length := by rw [hr]; exact hrows
  have hlen : parts'.length = parts.length := by simpa using congrArg List.length hids
  have hglen : m'.groups.length = m.groups.length := by
    rw [hm', (C20_refine_elements hgeo hwf href).1, hr]
  have hget : ∀ (i : Nat) p', parts'[i]? = some p' → ∃ p, parts[i]? = some p ∧ ChildrenOf m m' r' p.2 p'.2 := by
    intro i p' hp'
    have hi : i < parts.length := by rw [← hlen]; exact (List.getElem?_eq_some_iff.1 hp').1
    exact ⟨_, List.getElem?_eq_getElem hi, hch i _ _ (List.getElem?_eq_getElem hi) hp'⟩
  -- each element of the refined mesh has one parent
  have hparent : ∀ {g e e' k : Nat}, r'.Child g e k → r'.Child g e' k → e = e' := by
    rintro g e e' k ⟨t, mapping, c, h1, h2, h3⟩ ⟨t', mapping', c', h1', h2', h3'⟩
    rw [h1] at h1'
    obtain ⟨rfl, rfl⟩ := Prod.mk.inj (Option.some.inj h1')
    have hg : g < r.groups.length := by
      rw [← (C20_refine_elements hgeo hwf href).2.1]
      exact (List.getElem?_eq_some_iff.1 h1).1
    obtain ⟨g', mapping2, _, hrec, _, _, hex, _⟩ := refine_group hgeo hwf href (List.getElem?_eq_getElem hg)
    rw [h1] at hrec
    obtain ⟨rfl, rfl⟩ := Prod.mk.inj (Option.some.inj hrec)
    have hk : k < g'.nelements := by
      have : k ∈ mapping.flatten := List.mem_flatten.2 ⟨c, List.mem_of_getElem? h2, h3⟩
      rw [hex.2] at this
      exact List.mem_range.1 this
    obtain ⟨i, _, hu⟩ := hex.parent hk
    rw [hu e ⟨c, h2, h3⟩, hu e' ⟨c', h2', h3'⟩]
  refine ⟨hids ▸ hv.ids, hsorted, ?_, ?_, ?_⟩
  · intro p' hp' n' hn'
    obtain ⟨i, hi⟩ := List.mem_iff_getElem?.1 hp'
    obtain ⟨p, _, hc⟩ := hget i p' hi
    obtain ⟨_, g, _, k, _, _, _, hk⟩ := (hc n').1 hn'
    exact (C01_numbering_bijective m'.sizes n').1.2 ⟨g, k, hk⟩
  · intro n' hn'
    obtain ⟨g, k, hgk⟩ := (C01_numbering_bijective m'.sizes n').1.1 hn'
    have hgk0 := hgk
    obtain ⟨n, hn, hkn, _⟩ := hgk0
    rw [sizes_getElem?, Option.map_eq_some_iff] at hn
    obtain ⟨grp', hg', rfl⟩ := hn
    have hg : g < m.groups.length := by rw [← hglen]; exact (List.getElem?_eq_some_iff.1 hg').1
    have hgm := List.getElem?_eq_getElem hg
    generalize m.groups[g] = grp at hgm
    obtain ⟨grp2, mapping, hg2, hrec, _, _, hex, _⟩ := refine_group hgeo hwf href (i := g) (g := grp) (by rw [hr]; exact hgm)
    rw [hm', hg2] at hg'
    obtain rfl := Option.some.inj hg'
    obtain ⟨e, ⟨c, hc, hkc⟩, _⟩ := hex.parent hkn
    have he : e < grp.nelements := by
      rw [← hex.1]
      exact (List.getElem?_eq_some_iff.1 hc).1
    have hge : IsGlobalNr m.sizes g e ((m.sizes.take g).sum + e) :=
      ⟨_, by rw [sizes_getElem?, hgm]; rfl, he, rfl⟩
    obtain ⟨p, hp, hep⟩ := hv.covered _ ((C01_numbering_bijective m.sizes _).1.2 ⟨g, e, hge⟩)
    obtain ⟨i, hi⟩ := List.mem_iff_getElem?.1 hp
    have hil : i < parts'.length := by rw [hlen]; exact (List.getElem?_eq_some_iff.1 hi).1
    exact ⟨_, List.getElem_mem hil, (hch i _ _ hi (List.getElem?_eq_getElem hil) n').2
      ⟨_, g, e, k, hep, hge, ⟨_, mapping, c, hrec, hc, hkc⟩, hgk⟩⟩
  · intro i j p' q' n' hi hj hp hq
    obtain ⟨p, hpi, hcp⟩ := hget i p' hi
    obtain ⟨q, hqj, hcq⟩ := hget j q' hj
    obtain ⟨n, g, e, k, hn, hge, hck, hgk⟩ := (hcp n').1 hp
    obtain ⟨n2, g2, e2, k2, hn2, hge2, hck2, hgk2⟩ := (hcq n').1 hq
    obtain ⟨rfl, rfl⟩ := (C01_numbering_bijective m'.sizes n').2 _ _ _ _ hgk hgk2
    obtain rfl := hparent hck hck2
    obtain ⟨_, _, _, rfl⟩ := hge
    obtain ⟨_, _, _, rfl⟩ := hge2
    exact hv.disjoint i j p q _ hpi hqj hn hn2

end

/-- C119: the geometry of elements given by nodes (resampling with a matrix) has the required locality. -/
theorem C119_polynomial_local {K : Type} [Field K]
    {resample : List (List K → K) → List (List K) → List (List K) → Option (Mat K)}
    {meg : SGroup K (List K)} {sh : ChildShape} {ref1 ref2 children : List (List Nat)}
    {geo : Geo (List (List K)) (List K)} (h : polyGeo resample meg sh ref1 ref2 children = some geo) : geo.Local := by
  obtain ⟨t, mapped, Mm, Mc, _, _, _, _, rfl⟩ := polyGeo_spec h
  intro g g' _ _
  refine ⟨rfl, ?_⟩
  intro e e' x he he'
  simp only [he, he']

/-- C119: the vertices of the elements are at the same points, if in both refined meshes the vertices of the elements are
where their nodes say (C88 tells when this is so). -/
theorem C119_vertices {K : Type} [Field K]
    {resample : List (List K → K) → List (List K) → List (List K) → Option (Mat K)} (hres : ResampleSound resample)
    {meg : SGroup K (List K)} (hl : meg.basis.length = meg.nodes.length) {new : List (List K)} {M : Mat K}
    (hM : resample meg.basis new meg.nodes = some M) {ref1 : List (List Nat)}
    {geo : Geo (List (List K)) (List K)} {m m' : MMesh (List (List K)) (List K) A}
    {r r' : Refiner (List (List K)) (List K)} {flags : List Bool} {parts : Parts} {p : Nat}
    {pm : MMesh (List (List K)) (List K) A} {sel : List Nat} {rp rp' : Refiner (List (List K)) (List K)}
    {pflags : List Bool} {parts' : Parts} {q : Nat} {qm : MMesh (List (List K)) (List K) A} {sel' : List Nat}
    (hgeo : geo.OK) (hloc : geo.Local)
    (H : PartRefined geo m m' r r' flags parts p pm sel rp rp' pflags parts' q qm sel')
    (hc : CornersMatch meg ref1 r') (hcp : CornersMatch meg ref1 rp') {g k : Nat} {qg pg : ElGroup (List (List K))}
    {row prow : List Nat} (hq : qm.groups[g]? = some qg) (hp : rp'.groups[g]? = some pg)
    (hrow : qg.vertexIndices[k]? = some row) (hprow : pg.vertexIndices[k]? = some prow) :
    row.map (qm.vertices[·]?) = prow.map (rp'.vertices[·]?) := by
  have hel := C119_elements hgeo hloc H
  obtain ⟨_, required', hs', hv', hf', hso', hra'⟩ := partSpec_of H.ids' H.sorted' H.part' H.mem'
  have hg : g < m'.groups.length := by rw [← hf'.length]; exact (List.getElem?_eq_some_iff.1 hq).1
  have hgm := List.getElem?_eq_getElem hg
  generalize m'.groups[g] = grp at hgm
  obtain ⟨qg2, hqg, qk, qf, qrow, qel⟩ := hf'.group g grp hgm
  rw [hq] at hqg
  obtain rfl := Option.some.inj hqg
  have hnodes : qg.nodes = pg.nodes := by
    have := congrArg (·[g]?) hel
    simp only [List.getElem?_map, hq, hp, Option.map_some, Option.some.injEq, Prod.mk.injEq] at this
    exact this.2.2
  have hsz : m'.sizes[g]? = some grp.nelements := by rw [sizes_getElem?, hgm]; rfl
  obtain ⟨hl', hse'⟩ := List.getElem?_eq_some_iff.1 hsz
  obtain ⟨e1, e2⟩ := filteredElements_spec hso' hra' hl'
  have hkl : k < (filteredElements m'.sizes sel' g).length := by
    rw [e1, ← hf'.sizes g qg.nelements (by rw [List.getElem?_map, hq]; rfl)]
    have := (List.getElem?_eq_some_iff.1 hrow).1
    unfold ElGroup.nelements
    omega
  have hki := List.getElem?_eq_getElem hkl
  generalize (filteredElements m'.sizes sel' g)[k] = i at hki
  obtain ⟨⟨x, hx1, hx2⟩, row2, hr1, hr2, hr3⟩ := qel k i hki
  rw [hrow] at hr3
  obtain rfl := Option.some.inj hr3
  have hgr : grp ∈ r'.groups := by rw [← H.result.1]; exact List.mem_of_getElem? hgm
  obtain ⟨_, c2, c3⟩ := hc grp hgr i row2 x hr1 hx2
  obtain ⟨_, d2, d3⟩ := hcp pg (List.mem_of_getElem? hp) k prow x hprow (by rw [← hnodes]; exact hx1)
  apply List.ext_getElem?
  intro s
  rw [List.getElem?_map, List.getElem?_map, List.getElem?_map]
  by_cases hsl : s < ref1.length
  · have h1 := List.getElem?_eq_getElem (l := row2) (i := s) (by omega)
    have h2 := List.getElem?_eq_getElem (l := prow) (i := s) (by omega)
    have h3 := List.getElem?_eq_getElem hsl
    obtain ⟨pt, hpt, hat⟩ := c3 s _ _ h1 h3
    obtain ⟨pt', hpt', hat'⟩ := d3 s _ _ h2 h3
    rw [h1, h2]
    simp only [Option.map_some, Option.some.injEq]
    rw [hpt', elementAt_unique hres hl hM hat' hat]
    have hin := hr2 _ (List.mem_of_getElem? h1)
    obtain ⟨j, hj, hje⟩ := List.mem_iff_getElem.1 hin
    rw [← hje, npSearchsorted_getElem hf'.required_sorted j hj]
    have hsel := (selectRows_getElem? hs'.vertices).2 j _ (List.getElem?_eq_getElem hj)
    obtain ⟨y, hy1, hy2⟩ := hsel
    rw [hje, H.result.2, hpt] at hy2
    rw [hy1, ← hy2]
  · rw [List.getElem?_eq_none (l := row2) (by omega), List.getElem?_eq_none (l := prow) (by omega)]
    rfl

/-! ## Examples -/

/-- The square. (Example, no code.) -/
def exSquare : MMesh (List (List ℚ)) (List ℚ) Unit :=
  ⟨squareVertices, [squareGroup], computeFacial () [squareGroup] [] []⟩

/-- The refined elements. (Example, no code.) -/
def exSquareFine : ElGroup (List (List ℚ)) where
  kind := 0
  fvi := [[0, 1], [0, 2], [1, 2]]
  vertexIndices := [[0, 4, 5], [4, 1, 6], [5, 6, 2], [4, 6, 5], [3, 7, 8], [7, 2, 6], [8, 6, 1], [7, 6, 8]]
  nodes := [[[0, 1, 0], [0, 0, 1]], [[1, 2, 1], [0, 0, 1]], [[0, 1, 0], [1, 1, 2]], [[1, 1, 0], [0, 1, 1]],
    [[2, 1, 2], [2, 2, 1]], [[1, 0, 1], [2, 2, 1]], [[2, 1, 2], [1, 1, 0]], [[1, 1, 2], [2, 1, 1]]]

/-- The square refined. (Example, no code.) -/
def exSquareRefined : MMesh (List (List ℚ)) (List ℚ) Unit :=
  ⟨[[0, 0], [2, 0], [0, 2], [2, 2], [1, 0], [0, 1], [1, 1], [1, 2], [2, 1]], [exSquareFine],
    computeFacial () [exSquareFine] [] []⟩

/-- Its second triangle. (Example, no code.) -/
def exSquarePart : ElGroup (List (List ℚ)) :=
  ⟨0, [[0, 1], [0, 2], [1, 2]], [[2, 1, 0]], [[[2, 0, 2], [2, 2, 0]]]⟩

deriving instance DecidableEq for Refiner

-- the second triangle of a square is refined, and taken from the refined square
example : ∃ geo r' pm rp' qm, triGeo = some geo ∧ geo.OK ∧ geo.Local ∧
    PartRefined geo exSquare exSquareRefined (Refiner.init squareVertices [squareGroup] (some true)) r' [true, true]
      [(0, [0]), (1, [1])] 1 pm [1] (Refiner.init [[2, 0], [0, 2], [2, 2]] [exSquarePart] (some true)) rp' [true]
      [(0, [0, 1, 2, 3]), (1, [4, 5, 6, 7])] 1 qm [4, 5, 6, 7] ∧
    RowsFit geo exSquare.groups ∧ CornersMatch triMeg triOne r' ∧ CornersMatch triMeg triOne rp' ∧
    -- the vertices are the same points, numbered differently
    qm.vertices = [[2, 0], [0, 2], [2, 2], [1, 1], [1, 2], [2, 1]] ∧
    rp'.vertices = [[2, 0], [0, 2], [2, 2], [1, 2], [2, 1], [1, 1]] := by
  obtain ⟨geo, hgeo⟩ : ∃ geo, triGeo = some geo := Option.isSome_iff_exists.1 (by decide +kernel)
  have h1 : (triGeo.bind fun geo => (Refiner.init squareVertices [squareGroup] (some true)).refine geo
      [true, true]) = some (⟨exSquareRefined.vertices, [exSquareFine], some true, [(triTess, [[0, 1, 2, 3], [4, 5, 6, 7]])],
        [((1, 3), 8), ((2, 3), 7), ((1, 2), 6), ((0, 2), 5), ((0, 1), 4)]⟩ : Refiner _ _) := by decide +kernel
  have h2 : (triGeo.bind fun geo => (Refiner.init [[2, 0], [0, 2], [2, 2]] [exSquarePart] (some true)).refine geo
      [true]) = some (⟨[[2, 0], [0, 2], [2, 2], [1, 2], [2, 1], [1, 1]],
        [⟨0, [[0, 1], [0, 2], [1, 2]], [[2, 3, 4], [3, 1, 5], [4, 5, 0], [3, 5, 4]],
          [[[2, 1, 2], [2, 2, 1]], [[1, 0, 1], [2, 2, 1]], [[2, 1, 2], [1, 1, 0]], [[1, 1, 2], [2, 1, 1]]]⟩],
        some true, [(triTess, [[0, 1, 2, 3]])], [((0, 1), 5), ((0, 2), 4), ((1, 2), 3)]⟩ : Refiner _ _) := by decide +kernel
  rw [hgeo, Option.bind_some] at h1 h2
  obtain ⟨pm, hpm, hpg⟩ : ∃ pm, getMeshPart exSquare [(0, [0]), (1, [1])] 1 = .ok pm ∧ pm.groups = [exSquarePart] := by
    refine ⟨⟨_, _, _⟩, rfl, by decide +kernel⟩
  obtain ⟨qm, hqm, hqv⟩ : ∃ qm, getMeshPart exSquareRefined [(0, [0, 1, 2, 3]), (1, [4, 5, 6, 7])] 1 = .ok qm ∧
      qm.vertices = [[2, 0], [0, 2], [2, 2], [1, 1], [1, 2], [2, 1]] := by
    refine ⟨⟨_, _, _⟩, rfl, by decide +kernel⟩
  have hl : geo.Local := C119_polynomial_local hgeo
  refine ⟨geo, _, pm, _, qm, hgeo, (polyGeo_ok hgeo (by decide) (by decide)).1, hl,
    ⟨by decide, rfl, h1, ⟨rfl, rfl⟩, by decide, by decide, hpm, by decide, hpg.symm, ⟨rfl, ?_⟩,
      h2, by decide, by decide, hqm, by decide, ?_⟩, ?_, tri_match (by decide +kernel),
    tri_match (by decide +kernel), hqv, rfl⟩
  · intro k e h
    match k, h with
    | 0, h => obtain rfl := Option.some.inj h; rfl
  · intro n'
    have hs : exSquare.sizes = [2] := rfl
    have hs' : exSquareRefined.sizes = [8] := rfl
    rw [hs, hs']
    constructor
    · intro hn
      refine ⟨1, 0, 1, n', by decide, ⟨2, rfl, by decide, rfl⟩, ⟨triTess, _, [4, 5, 6, 7], rfl, rfl, hn⟩, ⟨8, rfl, ?_, by simp⟩⟩
      simp only [List.mem_cons, List.not_mem_nil, or_false] at hn
      omega
    · rintro ⟨n, g, e, k, hn, ⟨_, hg, _, hne⟩, ⟨t, mapping, c, hr, hc, hk⟩, ⟨_, _, _, hnk⟩⟩
      match g, hg with
      | 0, _ =>
        obtain ⟨-, rfl⟩ := Prod.mk.inj (Option.some.inj hr)
        obtain rfl := List.mem_singleton.1 hn
        have he : e = 1 := by simpa using hne.symm
        subst he
        obtain rfl := Option.some.inj hc
        rw [hnk]
        simpa using hk
  · intro g hg
    obtain rfl := List.mem_singleton.1 hg
    refine ⟨rfl, 3, ?_, by decide⟩
    obtain ⟨t, mapped, Mm, Mc, ht, _, _, _, rfl⟩ := polyGeo_spec hgeo
    exact C89_tess_complete (by decide) ht (by decide)

end Meshmode
