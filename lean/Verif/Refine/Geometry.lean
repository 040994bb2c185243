import Verif.Refine.Vertices
import Verif.Connection.RefineGeo

/-!
# Vertices and nodes of refined meshes (C88)

The positions of new vertices, `get_group_midpoints` (meshmode/mesh/refinement/tessellate.py:110-127, 171-219),
together with the nodes of children (C64) and the refiner of C19 and C20.

All groups of the mesh have elements of one kind.  Arithmetic is exact and `mp.resampling_matrix` is a
parameter as for C62; modepy's node tuples and the children of the reference element are parameters as for C19.
-/
namespace Meshmode

section
variable {K : Type} [Field K]

/-! ## Model -/

/-- `_get_ref_midpoints`, meshmode/mesh/refinement/tessellate.py:171-194: `ref1` and `ref2` are modepy's node
tuples of order 1 and 2. -/
def refMidpoints (ref1 ref2 : List (List Nat)) : List (List Nat) :=
  ref2.filter fun t => !((ref1.map fun v => v.map (2 * ·)).contains t)

/-- `-1 + …` for one reference vertex, meshmode/mesh/refinement/tessellate.py:209. -/
def tupleUnitPoint (v : List Nat) : List K := v.map fun n : Nat => (n : K) - 1

/-- `resampled_midpoints` for one element and one midpoint, meshmode/mesh/refinement/tessellate.py:216-217; the
nodes are given for one coordinate after the other. -/
def elementMidpoint (M : Mat K) (nodes : List (List K)) (im : Nat) : List K :=
  nodes.map fun v => (matVec M v).getD im 0

/-- The nodes of the children of one element, meshmode/mesh/refinement/tessellate.py:238-249. -/
def elementChildren (M : Mat K) (nchildren nunit : Nat) (nodes : List (List K)) : List (List (List K)) :=
  (List.range nchildren).map fun j => nodes.map fun v => ((matVec M v).drop (j * nunit)).take nunit

/-- What the refiner takes from meshmode/mesh/refinement/tessellate.py:171-290 for groups with elements as in
`meg`: tessellation, nodes of children and midpoints; `none` if the tessellation or a resampling matrix cannot
be computed. -/
def polyGeo (resample : List (List K → K) → List (List K) → List (List K) → Option (Mat K))
    (meg : SGroup K (List K)) (sh : ChildShape) (ref1 ref2 children : List (List Nat)) :
    Option (Geo (List (List K)) (List K)) :=
  match tessInfo ref1 ref2 children, mapNodesToChildren sh ref2 meg.nodes children with
  | some t, .ok mapped =>
    match resample meg.basis ((refMidpoints ref1 ref2).map tupleUnitPoint) meg.nodes,
        resample meg.basis mapped.flatten meg.nodes with
    | some Mm, some Mc =>
      some ⟨fun _ => t,
        fun g e => elementChildren Mc mapped.length meg.nodes.length ((g.nodes[e]?).getD []),
        fun g e im => elementMidpoint Mm ((g.nodes[e]?).getD []) im⟩
    | _, _ => none
  | _, _ => none

/-! ## Specification -/

/-- The point of an element over a point of the reference element: for each coordinate, the value there of the
function of the space which has the listed values at the unit nodes.
(Specification or proof vocabulary, no code.) -/
def ElementAt (meg : SGroup K (List K)) (nodes : List (List K)) (x p : List K) : Prop :=
  p.length = nodes.length ∧ ∀ (q : Nat) v, nodes[q]? = some v →
    ∃ a, NodeValues meg a v ∧ p[q]? = some (evalAt meg.basis a x)

/-- The corner of the reference element with the given node tuple of order 1.
(Specification or proof vocabulary, no code.) -/
def refCorner (c : List Nat) : List K := c.map fun n : Nat => 2 * (n : K) - 1

/-- The vertices of each element are the points of the element over the corners of the reference element.
(Specification or proof vocabulary, no code.) -/
def CornersMatch (meg : SGroup K (List K)) (ref1 : List (List Nat)) (r : Refiner (List (List K)) (List K)) :
    Prop :=
  ∀ g ∈ r.groups, ∀ (e : Nat) row nodes, g.vertexIndices[e]? = some row → g.nodes[e]? = some nodes →
    (∀ v ∈ nodes, v.length = meg.nodes.length) ∧ row.length = ref1.length ∧
      ∀ (p : Nat) v c, row[p]? = some v → ref1[p]? = some c →
        ∃ pt, r.vertices[v]? = some pt ∧ ElementAt meg nodes (refCorner c) pt

/-- Element `e`, with nodes `nodes`, has an edge with vertices `a` and `b`, and `c` is the midpoint of this edge
in the reference element. (Specification or proof vocabulary, no code.) -/
def EdgeMid (t : Tess) (ref1 ref2 : List (List Nat)) (g : ElGroup (List (List K))) (e a b : Nat)
    (nodes : List (List K)) (c : List Nat) : Prop :=
  ∃ (im : Nat) (pair : Nat × Nat) (row : List Nat), g.vertexIndices[e]? = some row ∧ g.nodes[e]? = some nodes ∧
    t.midPairs[im]? = some pair ∧ row[pair.1]? = some a ∧ row[pair.2]? = some b ∧
    (refMidpoints ref1 ref2)[im]? = some c

/-- The elements to be refined agree on the midpoints of common edges, and with the vertices made for these
edges earlier. (Specification or proof vocabulary, no code.) -/
def MidpointsAgree (meg : SGroup K (List K)) (t : Tess) (ref1 ref2 : List (List Nat))
    (r : Refiner (List (List K)) (List K)) (flags : List Bool) (k : Nat) : Prop :=
  ∀ g, r.groups[k]? = some g → ∀ (e a b : Nat) nodes c, r.flagOf flags k e = some true →
    EdgeMid t ref1 ref2 g e a b nodes c →
    (∀ (e' a' b' : Nat) nodes' c', r.flagOf flags k e' = some true → EdgeMid t ref1 ref2 g e' a' b' nodes' c' →
      SameEdge a b a' b' → ∀ p, ElementAt meg nodes' (tupleUnitPoint c') p → ElementAt meg nodes (tupleUnitPoint c) p) ∧
    ∀ m, r.table.lookup (edgeKey a b) = some m →
      ∃ p, r.vertices[m]? = some p ∧ ElementAt meg nodes (tupleUnitPoint c) p

/-- The children of the reference element: the map to a child takes corners to the reference vertices of the
child and functions of the space to functions of the space. (Specification or proof vocabulary, no code.) -/
def ChildrenOK (meg : SGroup K (List K)) (sh : ChildShape) (ref1 ref2 children : List (List Nat)) : Prop :=
  ∀ child ∈ children, child.length = ref1.length ∧ (∀ x ∈ child, x < ref2.length) ∧
    ∀ origin axs T, ChildCorners sh ref2 child origin axs → ChildMap (K := K) origin axs T →
      ClosedUnder meg axs.length T ∧
      ∀ (q x : Nat) c v, child[q]? = some x → ref1[q]? = some c → ref2[x]? = some v →
        c.length = axs.length ∧ T (refCorner c) = tupleUnitPoint v

/-- The element is the image of the reference element under an affine map.
(Specification or proof vocabulary, no code.) -/
def StraightElement (meg : SGroup K (List K)) (d : Nat) (nodes : List (List K)) : Prop :=
  ∀ (s : K) (x y p q : List K), x.length = d → y.length = d → ElementAt meg nodes x p →
    ElementAt meg nodes y q → ElementAt meg nodes (linePoint s x y) (linePoint s p q)

/-! ## Lemmas -/

theorem nodeValues_map {meg : SGroup K (List K)} {a v : List K} (hv : NodeValues meg a v) :
    meg.nodes.map (evalAt meg.basis a) = v := by
  apply List.ext_getElem?
  intro i
  rw [List.getElem?_map]
  by_cases hi : i < meg.nodes.length
  · rw [hv.2.2 i _ (List.getElem?_eq_getElem hi), List.getElem?_eq_getElem hi, Option.map_some]
  · rw [List.getElem?_eq_none (by omega), List.getElem?_eq_none (by rw [hv.2.1]; omega), Option.map_none]

theorem nodeValues_unique {resample : List (List K → K) → List (List K) → List (List K) → Option (Mat K)}
    (hr : ResampleSound resample) {meg : SGroup K (List K)} (hl : meg.basis.length = meg.nodes.length)
    {new : List (List K)} {M : Mat K} (hM : resample meg.basis new meg.nodes = some M) {a a' v : List K}
    (h : NodeValues meg a v) (h' : NodeValues meg a' v) : a = a' := by
  obtain ⟨_, _, _, h4⟩ := hr _ _ _ _ hl hM
  exact h4 a a' h.1 h'.1 (by rw [nodeValues_map h, nodeValues_map h'])

theorem nodeValues_exists {resample : List (List K → K) → List (List K) → List (List K) → Option (Mat K)}
    (hr : ResampleSound resample) {meg : SGroup K (List K)} (hl : meg.basis.length = meg.nodes.length)
    {new : List (List K)} {M : Mat K} (hM : resample meg.basis new meg.nodes = some M) {v : List K}
    (hv : v.length = meg.nodes.length) : ∃ a, NodeValues meg a v := by
  obtain ⟨_, _, h3, _⟩ := hr _ _ _ _ hl hM
  obtain ⟨a, ha, h1, _⟩ := h3 v hv
  refine ⟨a, ha, hv, ?_⟩
  intro i x hx
  rw [← h1, List.getElem?_map, hx, Option.map_some]

theorem elementAt_unique {resample : List (List K → K) → List (List K) → List (List K) → Option (Mat K)}
    (hr : ResampleSound resample) {meg : SGroup K (List K)} (hl : meg.basis.length = meg.nodes.length)
    {new : List (List K)} {M : Mat K} (hM : resample meg.basis new meg.nodes = some M) {nodes : List (List K)}
    {x p p' : List K} (h : ElementAt meg nodes x p) (h' : ElementAt meg nodes x p') : p = p' := by
  apply List.ext_getElem?
  intro q
  by_cases hq : q < nodes.length
  · obtain ⟨a, ha, e⟩ := h.2 q _ (List.getElem?_eq_getElem hq)
    obtain ⟨a', ha', e'⟩ := h'.2 q _ (List.getElem?_eq_getElem hq)
    have : a = a' := nodeValues_unique hr hl hM ha ha'
    rw [e, e', this]
  · rw [List.getElem?_eq_none (by rw [h.1]; omega), List.getElem?_eq_none (by rw [h'.1]; omega)]

theorem elementAt_midpoint {resample : List (List K → K) → List (List K) → List (List K) → Option (Mat K)}
    (hr : ResampleSound resample) {meg : SGroup K (List K)} (hl : meg.basis.length = meg.nodes.length)
    {mids : List (List Nat)} {M : Mat K} (hM : resample meg.basis (mids.map tupleUnitPoint) meg.nodes = some M)
    {nodes : List (List K)} (hn : ∀ v ∈ nodes, v.length = meg.nodes.length) {im : Nat} {c : List Nat}
    (hc : mids[im]? = some c) : ElementAt meg nodes (tupleUnitPoint c) (elementMidpoint M nodes im) := by
  refine ⟨by simp [elementMidpoint], ?_⟩
  intro q v hv
  obtain ⟨a, ha⟩ := nodeValues_exists hr hl hM (hn v (List.mem_of_getElem? hv))
  refine ⟨a, ha, ?_⟩
  rw [elementMidpoint, List.getElem?_map, hv, Option.map_some, resample_values hr hl hM ha]
  rw [List.getD_eq_getElem?_getD, List.getElem?_map, List.getElem?_map, hc]
  rfl

theorem elementAt_child [CharZero K] [DecidableEq K]
    {resample : List (List K → K) → List (List K) → List (List K) → Option (Mat K)}
    (hr : ResampleSound resample) {meg : SGroup K (List K)} (hl : meg.basis.length = meg.nodes.length)
    {sh : ChildShape} {ref2 : List (List Nat)} {d : Nat} (hd : ∀ v ∈ ref2, v.length = d)
    {children : List (List Nat)} {mapped : List (List (List K))}
    (hm : mapNodesToChildren sh ref2 meg.nodes children = .ok mapped) {M : Mat K}
    (hM : resample meg.basis mapped.flatten meg.nodes = some M) {nodes : List (List K)}
    (hn : ∀ v ∈ nodes, v.length = meg.nodes.length) {j : Nat} {child origin : List Nat}
    {axs : List (List Nat)} {T : List K → List K} (hj : children[j]? = some child)
    (hcor : ChildCorners sh ref2 child origin axs) (hT : ChildMap (K := K) origin axs T)
    (hcl : ClosedUnder meg axs.length T) :
    ∃ w, (elementChildren M mapped.length meg.nodes.length nodes)[j]? = some w ∧
      (∀ v ∈ w, v.length = meg.nodes.length) ∧
      ∀ x p : List K, x.length = axs.length → (ElementAt meg w x p ↔ ElementAt meg nodes (T x) p) := by
  have hjl : j < mapped.length := by
    have := (mapNodes_ok hm).1
    have := (List.getElem?_eq_some_iff.1 hj).1
    omega
  have key : ∀ v ∈ nodes, ∃ a b, NodeValues meg a v ∧
      NodeValues meg b (((matVec M v).drop (j * meg.nodes.length)).take meg.nodes.length) ∧
      ∀ x : List K, x.length = axs.length → evalAt meg.basis b x = evalAt meg.basis a (T x) := by
    intro v hv
    obtain ⟨a, ha⟩ := nodeValues_exists hr hl hM (hn v hv)
    have ht : tessellatedNodes resample meg mapped v = some ((List.range mapped.length).map fun j =>
        ((matVec M v).drop (j * meg.nodes.length)).take meg.nodes.length) := by
      unfold tessellatedNodes
      rw [hM, Option.map_some]
    obtain ⟨w, b, h1, h2, h3, _⟩ := C64_same_surface hr hl hd hm ha ht hj hcor hT hcl
    rw [List.getElem?_map, List.getElem?_range hjl, Option.map_some, Option.some.injEq] at h1
    subst h1
    exact ⟨a, b, ha, h2, h3⟩
  refine ⟨nodes.map fun v => ((matVec M v).drop (j * meg.nodes.length)).take meg.nodes.length, ?_, ?_, ?_⟩
  · rw [elementChildren, List.getElem?_map, List.getElem?_range hjl, Option.map_some]
  · intro w hw
    obtain ⟨v, hv, rfl⟩ := List.mem_map.1 hw
    obtain ⟨_, _, _, h2, _⟩ := key v hv
    exact h2.2.1
  · intro x p hx
    unfold ElementAt
    rw [List.length_map]
    refine and_congr_right fun _ => ⟨fun h q v hv => ?_, fun h q w hw => ?_⟩
    · obtain ⟨a, b, h1, h2, h3⟩ := key v (List.mem_of_getElem? hv)
      obtain ⟨b', hb', e⟩ := h q _ (by rw [List.getElem?_map, hv, Option.map_some])
      refine ⟨a, h1, ?_⟩
      rw [e, nodeValues_unique hr hl hM hb' h2, h3 x hx]
    · rw [List.getElem?_map, Option.map_eq_some_iff] at hw
      obtain ⟨v, hv, rfl⟩ := hw
      obtain ⟨a, b, h1, h2, h3⟩ := key v (List.mem_of_getElem? hv)
      obtain ⟨a', ha', e⟩ := h q v hv
      refine ⟨b, h2, ?_⟩
      rw [e, nodeValues_unique hr hl hM ha' h1, h3 x hx]

theorem tessInfo_spec {ref1 ref2 children : List (List Nat)} {t : Tess}
    (h : tessInfo ref1 ref2 children = some t) : t.children = children ∧ t.nref = ref2.length ∧
      t.origIdx.map (ref2[·]?) = (ref1.map fun v => v.map (2 * ·)).map some ∧
      t.midIdx.map (ref2[·]?) = (refMidpoints ref1 ref2).map some ∧
      t.midPairs.length = (refMidpoints ref1 ref2).length ∧
      ∀ (im : Nat) pair c, t.midPairs[im]? = some pair → (refMidpoints ref1 ref2)[im]? = some c →
        ∃ a b, ref1[pair.1]? = some a ∧ ref1[pair.2]? = some b ∧
          midpointTuple (a.map (2 * ·)) (b.map (2 * ·)) = some c := by
  unfold tessInfo at h
  simp only [Option.bind_eq_bind, Option.bind_eq_some_iff, Option.pure_def, Option.some.injEq] at h
  obtain ⟨oi, ho, mi, hm, mp, hp, rfl⟩ := h
  refine ⟨rfl, rfl, mapM_idxOf ho, mapM_idxOf hm, (mapM_getElem?_some hp).1, ?_⟩
  intro im pair c h1 h2
  obtain ⟨b, hb, hb'⟩ := (mapM_getElem?_some hp).2 im c h2
  rw [h1] at hb
  cases hb
  have := List.find?_some hb'
  split at this
  · rename_i x y hx hy
    rw [List.getElem?_map, Option.map_eq_some_iff] at hx hy
    obtain ⟨x', hx', rfl⟩ := hx
    obtain ⟨y', hy', rfl⟩ := hy
    exact ⟨x', y', hx', hy', by simpa using this⟩
  · simp at this

/-- What becomes of the table of midpoints. -/
theorem refine_table {N P : Type} {geo : Geo N P} (hgeo : geo.OK) (ht : ∀ g, (geo.tess g).OK)
    {r r' : Refiner N P} (hr : r.OK) {flags : List Bool} (h : r.refine geo flags = some r') {k : Nat}
    (hk : r.FlagsIn flags k) {key : Nat × Nat} {m : Nat} (hm : r'.table.lookup key = some m) :
    r.table.lookup key = some m ∨ ∃ g p, r.groups[k]? = some g ∧ r'.vertices[m]? = some p ∧
      MidpointOf (geo.tess g) g.vertexIndices (geo.pt g)
        ((List.range g.nelements).filter fun e => r.flagOf flags k e = some true) key p := by
  obtain ⟨hwf, hval, htab⟩ := hr
  unfold Refiner.refine at h
  split at h
  · simp at h
  rename_i hlen
  have hlen := not_not.1 hlen
  simp only at h
  split at h
  · simp at h
  rename_i gs table added hgs
  simp only [Option.some.injEq] at h
  have hfl : ∀ (i : Nat) g, r.groups[i]? = some g → ∃ f,
      (refineFlags r.groups flags)[i]? = some f ∧ f.length = g.nelements ∧
      ∀ e, e < g.nelements → f[e]? = r.flagOf flags i e := by
    intro i g hg
    exact refineFlags_getElem? hg hlen
  have hno : ∀ (i : Nat) p, i ≠ k → (r.groups.zip (refineFlags r.groups flags))[i]? = some p →
      ∀ e : Nat, p.2[e]? ≠ some true := by
    rintro i ⟨g, f⟩ hik hp e he
    obtain ⟨h1, h2⟩ := List.getElem?_zip_eq_some.1 hp
    obtain ⟨f', hf', hfl', hfe⟩ := hfl i g h1
    simp only at h1 h2 he
    rw [h2] at hf'
    cases hf'
    have hlt : e < g.nelements := hfl' ▸ (List.getElem?_eq_some_iff.1 he).1
    have := hk i g e hik h1 hlt
    rw [← hfe e hlt, he] at this
    simp at this
  have e2 : r'.vertices = r.vertices ++ added := by rw [← h]
  have e3 : r'.table = table := by rw [← h]
  rw [e3] at hm
  cases hgk : r.groups[k]? with
  | none =>
    have hnil := refineGroups_noflags (fun p hp => by
      obtain ⟨i, hi⟩ := List.mem_iff_getElem?.1 hp
      refine hno i p ?_ hi
      rintro rfl
      obtain ⟨h1, _⟩ := List.getElem?_zip_eq_some.1 hi
      rw [hgk] at h1
      simp at h1) hgs
    exact .inl (by rw [← hnil.1]; exact hm)
  | some g =>
    obtain ⟨f, hf, hfll, hfe⟩ := hfl k g hgk
    obtain ⟨g', hg1, hg2⟩ := refineGroups_one hno hgs (List.getElem?_zip_eq_some.2 ⟨hgk, hf⟩)
    generalize hs : ((⟨table, _, added⟩ : RState P)) = s at hg1
    have hst : s.table = table := by rw [← hs]
    have hsa : s.added = added := by rw [← hs]
    have htn : ∀ (e : Nat), f[e]? = some true →
        (geo.tn g e).length = (geo.tess g).children.length := fun e he =>
      hgeo g e (hfll ▸ (List.getElem?_eq_some_iff.1 he).1)
    obtain ⟨v1, _, _⟩ := refineGroup_vertices (ht g) (hwf g (List.mem_of_getElem? hgk)) hfll htn
      htab (hval g (List.mem_of_getElem? hgk)) hg1
    rcases v1.new key m (by rw [hst]; exact hm) with hc | ⟨hge, p, hp, hq⟩
    · exact .inl hc
    · simp only [List.length_nil, Nat.zero_add] at hp hge
      refine .inr ⟨g, p, rfl, ?_, ?_⟩
      · rw [e2, List.getElem?_append_right hge, ← hsa]
        exact hp
      · obtain ⟨e1, he1, rest⟩ := hq
        refine ⟨e1, ?_, rest⟩
        rw [mem_npWhere] at he1
        have hlt : e1 < g.nelements := hfll ▸ (List.getElem?_eq_some_iff.1 he1).1
        rw [List.mem_filter]
        refine ⟨List.mem_range.2 hlt, ?_⟩
        rw [← hfe e1 hlt, he1]
        simp

/-- An element of the refined mesh is an old one, or a child of a flagged one. -/
theorem refine_cases {N P : Type} {geo : Geo N P} (hgeo : geo.OK) (ht : ∀ g, (geo.tess g).OK)
    {r r' : Refiner N P} (hr : r.OK) {flags : List Bool} (h : r.refine geo flags = some r') {k : Nat}
    (hk : r.FlagsIn flags k) {i : Nat} {g' : ElGroup N} (hg' : r'.groups[i]? = some g') {e' : Nat}
    (he' : e' < g'.nelements) :
    ∃ g e, r.groups[i]? = some g ∧ e < g.nelements ∧
      ((r.flagOf flags i e = some false ∧ g'.vertexIndices[e']? = g.vertexIndices[e]? ∧
          g'.nodes[e']? = g.nodes[e]?) ∨
        (i = k ∧ r.flagOf flags k e = some true ∧ ∃ (j : Nat) (child row row' : List Nat),
          (geo.tess g).children[j]? = some child ∧ g.vertexIndices[e]? = some row ∧
          g'.nodes[e']? = (geo.tn g e)[j]? ∧ g'.vertexIndices[e']? = some row' ∧
          row'.length = child.length ∧ ∀ (q x : Nat), child[q]? = some x →
            (∀ p : Nat, (geo.tess g).origIdx[p]? = some x → row'[q]? = row[p]?) ∧
            (∀ (im a b : Nat) pair, (geo.tess g).midIdx[im]? = some x → (geo.tess g).midPairs[im]? = some pair →
              row[pair.1]? = some a → row[pair.2]? = some b →
              ∃ m, row'[q]? = some m ∧ r'.table.lookup (edgeKey a b) = some m))) := by
  obtain ⟨c1, c2, c3, c4⟩ := C20_refine_elements hgeo hr.1 h
  have hil := (List.getElem?_eq_some_iff.1 hg').1
  have hg := List.getElem?_eq_getElem (l := r.groups) (i := i) (by omega)
  generalize r.groups[i] = g at hg
  obtain ⟨g'', mapping, d1, d2, d3, d4⟩ := c4 i g hg
  rw [hg'] at d1
  cases d1
  obtain ⟨e, ⟨c, hc, hec⟩, _⟩ := d3.parent he'
  have hel : e < g.nelements := by
    rw [← d3.1]
    exact (List.getElem?_eq_some_iff.1 hc).1
  obtain ⟨j, hj⟩ := List.mem_iff_getElem?.1 hec
  have hfl : ∃ b, r.flagOf flags i e = some b := by
    unfold Refiner.refine at h
    split at h
    · simp at h
    rename_i hlen
    obtain ⟨f, _, hfl, hfe⟩ := refineFlags_getElem? hg (not_not.1 hlen)
    exact ⟨f[e], by unfold Refiner.flagOf; rw [← hfe e hel, List.getElem?_eq_getElem (by omega)]⟩
  obtain ⟨b, hb⟩ := hfl
  refine ⟨g, e, hg, hel, ?_⟩
  cases b with
  | false =>
    obtain ⟨k', rfl, h1, h2⟩ := (d4 e c hc).1 hb
    rw [List.mem_singleton] at hec
    subst hec
    exact .inl ⟨hb, h1, h2⟩
  | true =>
    have hik : i = k := by
      by_contra hik
      have := hk i g e hik hg hel
      rw [hb] at this
      simp at this
    subst hik
    obtain ⟨h1, h2⟩ := (d4 e c hc).2 hb
    obtain ⟨_, _, _, c19⟩ := C19_new_vertices_partial hgeo ht hr h hk
    obtain ⟨g2, mapping2, num, e1, e2, e3, _, e5⟩ := c19 g hg
    rw [hg'] at e1
    cases e1
    rw [d2] at e2
    cases e2
    obtain ⟨row, hrow, e6⟩ := e3 e c hb hc
    have hjl := (List.getElem?_eq_some_iff.1 hj).1
    have hchild := List.getElem?_eq_getElem (l := (geo.tess g).children) (i := j) (by omega)
    obtain ⟨row', f1, f2, f3⟩ := e6 j e' _ hj hchild
    refine .inr ⟨rfl, hb, j, _, row, row', hchild, hrow, h2 j e' hj, f1, f2, ?_⟩
    intro q x hx
    obtain ⟨f4, f5⟩ := f3 q x hx
    refine ⟨f4, ?_⟩
    intro im a b pair him hpair ha hb'
    exact ⟨_, f5 im him, (e5 e im a b pair row hel hb hrow hpair ha hb').1⟩

theorem polyGeo_spec {resample : List (List K → K) → List (List K) → List (List K) → Option (Mat K)}
    {meg : SGroup K (List K)} {sh : ChildShape} {ref1 ref2 children : List (List Nat)}
    {geo : Geo (List (List K)) (List K)} (h : polyGeo resample meg sh ref1 ref2 children = some geo) :
    ∃ t mapped Mm Mc, tessInfo ref1 ref2 children = some t ∧
      mapNodesToChildren sh ref2 meg.nodes children = .ok mapped ∧
      resample meg.basis ((refMidpoints ref1 ref2).map tupleUnitPoint) meg.nodes = some Mm ∧
      resample meg.basis mapped.flatten meg.nodes = some Mc ∧
      geo = ⟨fun _ => t, fun g e => elementChildren Mc mapped.length meg.nodes.length ((g.nodes[e]?).getD []),
        fun g e im => elementMidpoint Mm ((g.nodes[e]?).getD []) im⟩ := by
  unfold polyGeo at h
  split at h
  · rename_i t mapped h1 h2
    split at h
    · rename_i Mm Mc h3 h4
      exact ⟨t, mapped, Mm, Mc, h1, h2, h3, h4, (Option.some.inj h).symm⟩
    · simp at h
  · simp at h

theorem polyGeo_ok {resample : List (List K → K) → List (List K) → List (List K) → Option (Mat K)}
    {meg : SGroup K (List K)} {sh : ChildShape} {ref1 ref2 children : List (List Nat)}
    {geo : Geo (List (List K)) (List K)} (h : polyGeo resample meg sh ref1 ref2 children = some geo)
    (h1 : ref1.Nodup) (h2 : ref2.Nodup) : geo.OK ∧ ∀ g, (geo.tess g).OK := by
  obtain ⟨t, mapped, Mm, Mc, ht, hm, _, _, rfl⟩ := polyGeo_spec h
  refine ⟨?_, fun _ => tessInfo_ok h1 h2 ht⟩
  intro g e _
  simp only [elementChildren, List.length_map, List.length_range]
  rw [(mapNodes_ok hm).1, (tessInfo_spec ht).1]

theorem tupleUnitPoint_double (c : List Nat) : (tupleUnitPoint (c.map (2 * ·)) : List K) = refCorner c := by
  unfold tupleUnitPoint refCorner
  rw [List.map_map]
  refine List.map_congr_left fun n _ => ?_
  simp

/-! ## Properties -/

/-- **C88**: refining a mesh whose vertices are the points of its elements over the corners of the reference
element gives such a mesh again, if the elements which are refined agree on the midpoints of common edges, and
with the vertices made for these edges earlier.  (Missing: flagged elements in several groups, see
`C88_groups_counterexample`.) -/
theorem C88_vertices_match_partial [CharZero K] [DecidableEq K]
    {resample : List (List K → K) → List (List K) → List (List K) → Option (Mat K)}
    (hr : ResampleSound resample) {meg : SGroup K (List K)} (hl : meg.basis.length = meg.nodes.length)
    {sh : ChildShape} {ref1 ref2 children : List (List Nat)} (h1 : ref1.Nodup) (h2 : ref2.Nodup) {d : Nat}
    (hd : ∀ v ∈ ref2, v.length = d) {geo : Geo (List (List K)) (List K)}
    (hgeo : polyGeo resample meg sh ref1 ref2 children = some geo) {t : Tess}
    (ht : tessInfo ref1 ref2 children = some t) (hch : ChildrenOK meg sh ref1 ref2 children)
    {r r' : Refiner (List (List K)) (List K)} (hok : r.OK) (hmatch : CornersMatch meg ref1 r)
    {flags : List Bool} (h : r.refine geo flags = some r') {k : Nat} (hk : r.FlagsIn flags k)
    (hag : MidpointsAgree meg t ref1 ref2 r flags k) : r'.OK ∧ CornersMatch meg ref1 r' := by
  obtain ⟨g1, g2⟩ := polyGeo_ok hgeo h1 h2
  obtain ⟨hok', hpre, _, _⟩ := C19_new_vertices_partial g1 g2 hok h hk
  refine ⟨hok', ?_⟩
  obtain ⟨t', mapped, Mm, Mc, ht', hm, hMm, hMc, rfl⟩ := polyGeo_spec hgeo
  rw [ht] at ht'
  cases ht'
  obtain ⟨t1, t2, t3, t4, t5, t6⟩ := tessInfo_spec ht
  have hold : ∀ (v : Nat) pt, r.vertices[v]? = some pt → r'.vertices[v]? = some pt := by
    intro v pt hv
    obtain ⟨l, hl'⟩ := hpre
    rw [← hl', List.getElem?_append_left (List.getElem?_eq_some_iff.1 hv).1, hv]
  intro g' hg' e' row' nodes' hrow' hnodes'
  obtain ⟨i, hi⟩ := List.mem_iff_getElem?.1 hg'
  have he' : e' < g'.nelements := (List.getElem?_eq_some_iff.1 hnodes').1
  obtain ⟨g, e, hg, he, hcase⟩ := refine_cases g1 g2 hok h hk hi he'
  have hgm := List.mem_of_getElem? hg
  rcases hcase with ⟨_, c1, c2⟩ | ⟨rfl, hfl, j, child, row, row2, d1, d2, d3, d4, d5, d6⟩
  · rw [hrow'] at c1
    rw [hnodes'] at c2
    obtain ⟨m1, m2, m3⟩ := hmatch g hgm e row' nodes' c1.symm c2.symm
    refine ⟨m1, m2, ?_⟩
    intro p v c hp hc
    obtain ⟨pt, hpt, hat⟩ := m3 p v c hp hc
    exact ⟨pt, hold v pt hpt, hat⟩
  · rw [hrow'] at d4
    cases d4
    have hnodes := List.getElem?_eq_getElem (l := g.nodes) (i := e) he
    generalize g.nodes[e] = nodes at hnodes
    obtain ⟨m1, m2, m3⟩ := hmatch g hgm e row nodes d2 hnodes
    simp only at d1 d3 d6
    rw [t1] at d1
    rw [hnodes', hnodes, Option.getD_some] at d3
    obtain ⟨us, _, hus⟩ := (mapNodes_ok hm).2 j child d1
    obtain ⟨origin, axs, hcor, _, hT, _⟩ := childNodes_ok hd hus
    obtain ⟨k1, k3, k2⟩ := hch child (List.mem_of_getElem? d1)
    obtain ⟨hcl, hcorn⟩ := k2 origin axs _ hcor hT
    obtain ⟨w, hw, w1, w2⟩ := elementAt_child hr hl hd hm hMc m1 d1 hcor hT hcl
    rw [hw] at d3
    cases d3
    refine ⟨w1, by rw [d5, k1], ?_⟩
    intro q v c hq hc
    have hql := (List.getElem?_eq_some_iff.1 hq).1
    have hx := List.getElem?_eq_getElem (l := child) (i := q) (by omega)
    generalize child[q] = x at hx
    obtain ⟨d7, d8⟩ := d6 q x hx
    -- where the corner is in the parent
    suffices H : ∃ rv, ref2[x]? = some rv ∧ ∃ pt, r'.vertices[v]? = some pt ∧
        ElementAt meg nodes (tupleUnitPoint rv) pt by
      obtain ⟨rv, hrv, pt, hpt, hat⟩ := H
      obtain ⟨l1, l2⟩ := hcorn q x c rv hx hc hrv
      refine ⟨pt, hpt, (w2 _ pt (by simp [refCorner, l1])).2 ?_⟩
      rw [l2]
      exact hat
    have hxr : x < ref2.length := k3 x (List.mem_of_getElem? hx)
    obtain ⟨rv, hrv⟩ : ∃ rv, ref2[x]? = some rv := ⟨_, List.getElem?_eq_getElem hxr⟩
    refine ⟨rv, hrv, ?_⟩
    have huniq : ∀ y : Nat, ref2[y]? = some rv → y = x := by
      intro y hy
      exact (List.getElem?_inj (List.getElem?_eq_some_iff.1 hy).1 h2).1 (by rw [hy, hrv])
    by_cases ho : rv ∈ ref1.map fun v => v.map (2 * ·)
    · obtain ⟨p, hp⟩ := List.mem_iff_getElem?.1 ho
      have e1 : (t.origIdx.map (ref2[·]?))[p]? = some (some rv) := by
        rw [t3, List.getElem?_map, hp, Option.map_some]
      rw [List.getElem?_map, Option.map_eq_some_iff] at e1
      obtain ⟨y, hy, hy'⟩ := e1
      rw [huniq y hy'] at hy
      have e2 := d7 p hy
      rw [hq] at e2
      rw [List.getElem?_map, Option.map_eq_some_iff] at hp
      obtain ⟨c0, hc0, rfl⟩ := hp
      obtain ⟨pt, hpt, hat⟩ := m3 p v c0 e2.symm hc0
      refine ⟨pt, hold v pt hpt, ?_⟩
      rw [tupleUnitPoint_double]
      exact hat
    · have hmid : rv ∈ refMidpoints ref1 ref2 := by
        unfold refMidpoints
        rw [List.mem_filter]
        refine ⟨List.mem_of_getElem? hrv, ?_⟩
        rw [Bool.not_eq_true', ← Bool.not_eq_true, List.contains_iff_mem]
        exact ho
      obtain ⟨im, him⟩ := List.mem_iff_getElem?.1 hmid
      have e1 : (t.midIdx.map (ref2[·]?))[im]? = some (some rv) := by
        rw [t4, List.getElem?_map, him, Option.map_some]
      rw [List.getElem?_map, Option.map_eq_some_iff] at e1
      obtain ⟨y, hy, hy'⟩ := e1
      rw [huniq y hy'] at hy
      have himl := (List.getElem?_eq_some_iff.1 him).1
      obtain ⟨pair, hpair⟩ : ∃ pair, t.midPairs[im]? = some pair :=
        ⟨_, List.getElem?_eq_getElem (by omega)⟩
      obtain ⟨ca, cb, hca, hcb, _⟩ := t6 im pair rv hpair him
      obtain ⟨a, ha⟩ : ∃ a, row[pair.1]? = some a := ⟨_, List.getElem?_eq_getElem (by
        rw [m2]; exact (List.getElem?_eq_some_iff.1 hca).1)⟩
      obtain ⟨b, hb⟩ : ∃ b, row[pair.2]? = some b := ⟨_, List.getElem?_eq_getElem (by
        rw [m2]; exact (List.getElem?_eq_some_iff.1 hcb).1)⟩
      obtain ⟨m, hm1, hm2⟩ := d8 im a b pair hy hpair ha hb
      rw [hq] at hm1
      cases hm1
      obtain ⟨q1, q2⟩ := hag g hg e a b nodes rv hfl ⟨im, pair, row, d2, hnodes, hpair, ha, hb, him⟩
      rcases refine_table g1 g2 hok h hk hm2 with hold' | ⟨gx, p, hgx, hp, e1, he1, im1, pair1, row1, a1, b1,
          s1, s2, s3, s4, s5, rfl⟩
      · obtain ⟨p, hp, hat⟩ := q2 v hold'
        exact ⟨p, hold v p hp, hat⟩
      · rw [hg] at hgx
        cases hgx
        obtain ⟨he1, hfl1⟩ := List.mem_filter.1 he1
        have hfl1 := of_decide_eq_true hfl1
        obtain ⟨nodes1, hn1⟩ : ∃ nodes1, g.nodes[e1]? = some nodes1 :=
          ⟨_, List.getElem?_eq_getElem (List.mem_range.1 he1)⟩
        have him1l := (List.getElem?_eq_some_iff.1 s2).1
        simp only at s2 him1l
        obtain ⟨c1, hc1⟩ : ∃ c1, (refMidpoints ref1 ref2)[im1]? = some c1 :=
          ⟨_, List.getElem?_eq_getElem (by omega)⟩
        refine ⟨_, hp, ?_⟩
        simp only
        rw [hn1, Option.getD_some]
        refine q1 e1 a1 b1 nodes1 c1 hfl1 ⟨im1, pair1, row1, s1, hn1, s2, s3, s4, hc1⟩ (edgeKey_eq_iff.1 s5) _ ?_
        exact elementAt_midpoint hr hl hMm (hmatch g hgm e1 row1 nodes1 s1 hn1).1 hc1

/-- All elements of the mesh are straight. (Specification or proof vocabulary, no code.) -/
def AllStraight (meg : SGroup K (List K)) (d : Nat) (r : Refiner (List (List K)) (List K)) : Prop :=
  ∀ g ∈ r.groups, ∀ nodes ∈ g.nodes, StraightElement meg d nodes

/-- The vertex in the table for an edge is halfway between the vertices of the edge.
(Specification or proof vocabulary, no code.) -/
def TableHalfway (r : Refiner (List (List K)) (List K)) : Prop :=
  ∀ (a b m : Nat), r.table.lookup (edgeKey a b) = some m →
    ∃ pa pb, r.vertices[a]? = some pa ∧ r.vertices[b]? = some pb ∧
      r.vertices[m]? = some (linePoint (1 / 2) pa pb)

theorem linePoint_half_comm [CharZero K] (x y : List K) :
    linePoint (1 / 2 : K) x y = linePoint (1 / 2) y x := by
  unfold linePoint
  rw [List.zipWith_comm]
  congr 1
  funext a b
  ring

theorem midpointTuple_unit [CharZero K] {a b c : List Nat}
    (h : midpointTuple (a.map (2 * ·)) (b.map (2 * ·)) = some c) :
    a.length = b.length ∧ (tupleUnitPoint c : List K) = linePoint (1 / 2) (refCorner a) (refCorner b) := by
  unfold midpointTuple at h
  split at h
  · rename_i hab
    simp only [List.length_map] at hab
    refine ⟨hab, ?_⟩
    obtain ⟨h1, h2⟩ := mapM_getElem?_some h
    simp only [List.length_zip, List.length_map] at h1
    unfold tupleUnitPoint linePoint refCorner
    apply List.ext_getElem?
    intro i
    rw [List.getElem?_map, List.getElem?_zipWith, List.getElem?_map, List.getElem?_map]
    by_cases hi : i < a.length
    · rw [List.getElem?_eq_getElem hi, List.getElem?_eq_getElem (l := b) (hab ▸ hi)]
      obtain ⟨z, hz, hz'⟩ := h2 i (2 * a[i], 2 * b[i]'(hab ▸ hi)) (by
        rw [List.getElem?_zip_eq_some (z := (2 * a[i], 2 * b[i]'(hab ▸ hi)))]
        simp)
      rw [hz]
      split at hz'
      · simp only [Option.some.injEq] at hz'
        have : z = a[i] + b[i]'(hab ▸ hi) := by omega
        subst this
        simp only [Option.map_some, Option.some.injEq]
        push_cast
        ring
      · simp at hz'
    · rw [List.getElem?_eq_none (by omega), List.getElem?_eq_none (by omega : a.length ≤ i)]
      rfl
  · simp at h

/-- The midpoint of an edge of a straight element is halfway between its vertices. -/
theorem edgeMid_straight [CharZero K] {meg : SGroup K (List K)} {ref1 ref2 children : List (List Nat)}
    {t : Tess} (ht : tessInfo ref1 ref2 children = some t) {d : Nat} (hd1 : ∀ c ∈ ref1, c.length = d)
    {r : Refiner (List (List K)) (List K)} (hmatch : CornersMatch meg ref1 r) (hs : AllStraight meg d r)
    {g : ElGroup (List (List K))} (hg : g ∈ r.groups) {e a b : Nat} {nodes : List (List K)} {c : List Nat}
    (h : EdgeMid t ref1 ref2 g e a b nodes c) : ∃ pa pb, r.vertices[a]? = some pa ∧ r.vertices[b]? = some pb ∧
      ElementAt meg nodes (tupleUnitPoint c) (linePoint (1 / 2) pa pb) := by
  obtain ⟨im, pair, row, e1, e2, e3, e4, e5, e6⟩ := h
  obtain ⟨ca, cb, f1, f2, f3⟩ := (tessInfo_spec ht).2.2.2.2.2 im pair c e3 e6
  obtain ⟨_, _, m3⟩ := hmatch g hg e row nodes e1 e2
  obtain ⟨pa, hpa, ha⟩ := m3 _ _ _ e4 f1
  obtain ⟨pb, hpb, hb⟩ := m3 _ _ _ e5 f2
  refine ⟨pa, pb, hpa, hpb, ?_⟩
  rw [(midpointTuple_unit f3).2]
  refine hs g hg nodes (List.mem_of_getElem? e2) _ _ _ _ _ ?_ ?_ ha hb
  · rw [refCorner, List.length_map]
    exact hd1 _ (List.mem_of_getElem? f1)
  · rw [refCorner, List.length_map]
    exact hd1 _ (List.mem_of_getElem? f2)

/-- Straight elements agree on the midpoints of common edges. -/
theorem straight_agree [CharZero K]
    {resample : List (List K → K) → List (List K) → List (List K) → Option (Mat K)}
    (hr : ResampleSound resample) {meg : SGroup K (List K)} (hl : meg.basis.length = meg.nodes.length)
    {new : List (List K)} {M : Mat K} (hM : resample meg.basis new meg.nodes = some M)
    {ref1 ref2 children : List (List Nat)}
    {t : Tess} (ht : tessInfo ref1 ref2 children = some t) {d : Nat} (hd1 : ∀ c ∈ ref1, c.length = d)
    {r : Refiner (List (List K)) (List K)} (hmatch : CornersMatch meg ref1 r) (hs : AllStraight meg d r)
    (htab : TableHalfway r) (flags : List Bool) (k : Nat) : MidpointsAgree meg t ref1 ref2 r flags k := by
  intro g hg e a b nodes c _ he
  have hgm := List.mem_of_getElem? hg
  obtain ⟨pa, pb, h1, h2, h3⟩ := edgeMid_straight ht hd1 hmatch hs hgm he
  refine ⟨?_, ?_⟩
  · intro e' a' b' nodes' c' _ he' hse p hp
    obtain ⟨pa', pb', h1', h2', h3'⟩ := edgeMid_straight ht hd1 hmatch hs hgm he'
    have : p = linePoint (1 / 2) pa pb := by
      rw [elementAt_unique hr hl hM hp h3']
      rcases hse with ⟨rfl, rfl⟩ | ⟨rfl, rfl⟩
      · rw [h1] at h1'
        rw [h2] at h2'
        cases h1'
        cases h2'
        rfl
      · rw [h1] at h2'
        rw [h2] at h1'
        cases h1'
        cases h2'
        exact linePoint_half_comm _ _
    rw [this]
    exact h3
  · intro m hm
    obtain ⟨pa', pb', h1', h2', h3'⟩ := htab a b m hm
    rw [h1] at h1'
    rw [h2] at h2'
    cases h1'
    cases h2'
    exact ⟨_, h3', h3⟩

/-- **C88**: refining a mesh of straight elements, whose vertices are the points of its elements over the corners
of the reference element, gives such a mesh again, and each vertex made for an edge is halfway between the
vertices of the edge.  (Missing: flagged elements in several groups, see `C88_groups_counterexample`.) -/
theorem C88_straight_partial [CharZero K] [DecidableEq K]
    {resample : List (List K → K) → List (List K) → List (List K) → Option (Mat K)}
    (hr : ResampleSound resample) {meg : SGroup K (List K)} (hl : meg.basis.length = meg.nodes.length)
    {sh : ChildShape} {ref1 ref2 children : List (List Nat)} (h1 : ref1.Nodup) (h2 : ref2.Nodup) {d : Nat}
    (hd1 : ∀ c ∈ ref1, c.length = d) (hd : ∀ v ∈ ref2, v.length = d) {geo : Geo (List (List K)) (List K)}
    (hgeo : polyGeo resample meg sh ref1 ref2 children = some geo)
    (hch : ChildrenOK meg sh ref1 ref2 children)
    {r r' : Refiner (List (List K)) (List K)} (hok : r.OK) (hmatch : CornersMatch meg ref1 r)
    (hs : AllStraight meg d r) (htab : TableHalfway r)
    {flags : List Bool} (h : r.refine geo flags = some r') {k : Nat} (hk : r.FlagsIn flags k) :
    r'.OK ∧ CornersMatch meg ref1 r' ∧ AllStraight meg d r' ∧ TableHalfway r' := by
  obtain ⟨g1, g2⟩ := polyGeo_ok hgeo h1 h2
  obtain ⟨t, mapped, Mm, Mc, ht, hm, hMm, hMc, hgeq⟩ := polyGeo_spec hgeo
  have hag := straight_agree hr hl hMm ht hd1 hmatch hs htab flags k
  obtain ⟨hok', hmatch'⟩ := C88_vertices_match_partial hr hl h1 h2 hd hgeo ht hch hok hmatch h hk hag
  obtain ⟨_, hpre, _, _⟩ := C19_new_vertices_partial g1 g2 hok h hk
  have hold : ∀ (v : Nat) pt, r.vertices[v]? = some pt → r'.vertices[v]? = some pt := by
    intro v pt hv
    obtain ⟨l, hl'⟩ := hpre
    rw [← hl', List.getElem?_append_left (List.getElem?_eq_some_iff.1 hv).1, hv]
  subst hgeq
  obtain ⟨t1, t2, t3, t4, t5, t6⟩ := tessInfo_spec ht
  refine ⟨hok', hmatch', ?_, ?_⟩
  · intro g' hg' nodes' hn'
    obtain ⟨i, hi⟩ := List.mem_iff_getElem?.1 hg'
    obtain ⟨e', hnodes'⟩ := List.mem_iff_getElem?.1 hn'
    obtain ⟨g, e, hg, he, hcase⟩ := refine_cases g1 g2 hok h hk hi (List.getElem?_eq_some_iff.1 hnodes').1
    have hgm := List.mem_of_getElem? hg
    rcases hcase with ⟨_, c1, c2⟩ | ⟨rfl, hfl, j, child, row, row2, d1, d2, d3, d4, d5, d6⟩
    · rw [hnodes'] at c2
      exact hs g hgm _ (List.mem_of_getElem? c2.symm)
    · obtain ⟨nodes, hnodes⟩ : ∃ nodes, g.nodes[e]? = some nodes := ⟨_, List.getElem?_eq_getElem he⟩
      simp only at d1 d3
      rw [t1] at d1
      rw [hnodes', hnodes, Option.getD_some] at d3
      obtain ⟨us, _, hus⟩ := (mapNodes_ok hm).2 j child d1
      obtain ⟨origin, axs, hcor, _, hT, _⟩ := childNodes_ok hd hus
      obtain ⟨k1, k3, k2⟩ := hch child (List.mem_of_getElem? d1)
      obtain ⟨hcl, hcorn⟩ := k2 origin axs _ hcor hT
      obtain ⟨m1, m2, m3⟩ := hmatch g hgm e row nodes d2 hnodes
      obtain ⟨w, hw, w1, w2⟩ := elementAt_child hr hl hd hm hMc m1 d1 hcor hT hcl
      rw [hw] at d3
      cases d3
      obtain ⟨⟨n0, hn0, hor⟩, _⟩ := hcor
      have hlen : axs.length = d := by
        obtain ⟨c0, hc0⟩ : ∃ c0, ref1[0]? = some c0 :=
          ⟨_, List.getElem?_eq_getElem (by rw [← k1]; exact (List.getElem?_eq_some_iff.1 hn0).1)⟩
        rw [← (hcorn 0 n0 c0 origin hn0 hc0 hor).1]
        exact hd1 _ (List.mem_of_getElem? hc0)
      have hcp : ∀ x : List K, (childPoint origin axs x).length = d := by
        intro x
        rw [childPoint, List.length_map, List.length_range]
        exact hd _ (List.mem_of_getElem? hor)
      intro s x y p q hx hy hp hq
      rw [w2 _ _ (by rw [hx, hlen])] at hp
      rw [w2 _ _ (by rw [hy, hlen])] at hq
      rw [w2 _ _ (by rw [linePoint, List.length_zipWith, hx, hy, hlen, Nat.min_self]),
        hT.affine s x y (by rw [hx, hlen]) (by rw [hy, hlen])]
      exact hs g hgm nodes (List.mem_of_getElem? hnodes) s _ _ p q (hcp x) (hcp y) hp hq
  · intro a b m hm'
    rcases refine_table g1 g2 hok h hk hm' with hold' | ⟨g, p, hg, hp, e1, he1, im1, pair1, row1, a1, b1,
        s1, s2, s3, s4, s5, rfl⟩
    · obtain ⟨pa, pb, q1, q2, q3⟩ := htab a b m hold'
      exact ⟨pa, pb, hold _ _ q1, hold _ _ q2, hold _ _ q3⟩
    · have hgm := List.mem_of_getElem? hg
      obtain ⟨he1, _⟩ := List.mem_filter.1 he1
      obtain ⟨nodes1, hn1⟩ : ∃ nodes1, g.nodes[e1]? = some nodes1 :=
        ⟨_, List.getElem?_eq_getElem (List.mem_range.1 he1)⟩
      have him1l := (List.getElem?_eq_some_iff.1 s2).1
      simp only at s2 him1l
      obtain ⟨c1, hc1⟩ : ∃ c1, (refMidpoints ref1 ref2)[im1]? = some c1 :=
        ⟨_, List.getElem?_eq_getElem (by omega)⟩
      obtain ⟨pa, pb, q1, q2, q3⟩ := edgeMid_straight ht hd1 hmatch hs hgm
        ⟨im1, pair1, row1, s1, hn1, s2, s3, s4, hc1⟩
      simp only at hp
      rw [hn1, Option.getD_some, elementAt_unique hr hl hMm
        (elementAt_midpoint hr hl hMm (hmatch g hgm e1 row1 nodes1 s1 hn1).1 hc1) q3] at hp
      rcases edgeKey_eq_iff.1 s5 with ⟨rfl, rfl⟩ | ⟨rfl, rfl⟩
      · exact ⟨pa, pb, hold _ _ q1, hold _ _ q2, hp⟩
      · exact ⟨pb, pa, hold _ _ q2, hold _ _ q1, by rw [linePoint_half_comm]; exact hp⟩

/-- **C88**: the same for any sequence of refinements of a mesh. -/
theorem C88_straight_history_partial [CharZero K] [DecidableEq K]
    {resample : List (List K → K) → List (List K) → List (List K) → Option (Mat K)}
    (hr : ResampleSound resample) {meg : SGroup K (List K)} (hl : meg.basis.length = meg.nodes.length)
    {sh : ChildShape} {ref1 ref2 children : List (List Nat)} (h1 : ref1.Nodup) (h2 : ref2.Nodup) {d : Nat}
    (hd1 : ∀ c ∈ ref1, c.length = d) (hd : ∀ v ∈ ref2, v.length = d) {geo : Geo (List (List K)) (List K)}
    (hgeo : polyGeo resample meg sh ref1 ref2 children = some geo)
    (hch : ChildrenOK meg sh ref1 ref2 children)
    {vertices : List (List K)} {groups : List (ElGroup (List (List K)))} {c : Option Bool}
    (hwf : ∀ g ∈ groups, g.vertexIndices.length = g.nodes.length)
    (hval : ∀ g ∈ groups, ∀ row ∈ g.vertexIndices, ∀ v ∈ row, v < vertices.length)
    (hmatch : CornersMatch meg ref1 (Refiner.init vertices groups c))
    (hs : AllStraight meg d (Refiner.init vertices groups c)) {r : Refiner (List (List K)) (List K)}
    (h : Reached geo (Refiner.init vertices groups c) r) :
    r.OK ∧ CornersMatch meg ref1 r ∧ AllStraight meg d r ∧ TableHalfway r := by
  induction h with
  | init => exact ⟨⟨hwf, hval, by simp [Refiner.init, TableOK]⟩, hmatch, hs, by simp [Refiner.init, TableHalfway]⟩
  | step _ hk h ih =>
    obtain ⟨i1, i2, i3, i4⟩ := ih
    exact C88_straight_partial hr hl h1 h2 hd1 hd hgeo hch i1 i2 i3 i4 h hk

/-- **C88**: if the space has only affine functions, as for simplices of order 1, every element is straight. -/
theorem C88_linear_straight {resample : List (List K → K) → List (List K) → List (List K) → Option (Mat K)}
    (hr : ResampleSound resample) {meg : SGroup K (List K)} (hl : meg.basis.length = meg.nodes.length)
    {new : List (List K)} {M : Mat K} (hM : resample meg.basis new meg.nodes = some M) {d : Nat}
    (hb : ∀ f ∈ meg.basis, ∀ (s : K) (x y : List K), x.length = d → y.length = d →
      f (linePoint s x y) = (1 - s) * f x + s * f y) (nodes : List (List K)) : StraightElement meg d nodes := by
  intro s x y p q hx hy hp hq
  refine ⟨by rw [linePoint, List.length_zipWith, hp.1, hq.1, Nat.min_self], ?_⟩
  intro i v hv
  obtain ⟨a, ha, e⟩ := hp.2 i v hv
  obtain ⟨a', ha', e'⟩ := hq.2 i v hv
  obtain rfl := nodeValues_unique hr hl hM ha ha'
  refine ⟨a, ha, ?_⟩
  rw [linePoint_getElem? s e e']
  congr 1
  have hev : ∀ (fs : List (List K → K)) (c : List K), (∀ f ∈ fs, f ∈ meg.basis) →
      (1 - s) * evalAt fs c x + s * evalAt fs c y = evalAt fs c (linePoint s x y) := by
    intro fs
    induction fs with
    | nil => intro c _; simp [evalAt]
    | cons f fs ih =>
      intro c hf
      match c with
      | [] => simp [evalAt]
      | c0 :: c =>
        have := ih c fun g hg => hf g (List.mem_cons_of_mem _ hg)
        simp only [evalAt, List.zipWith_cons_cons, List.sum_cons] at this ⊢
        rw [← this, hb f (hf f List.mem_cons_self) s x y hx hy]
        ring
  exact hev _ _ fun _ h => h

/-- **C88**: the children of a simplex are as wanted: modepy's nodes of order 1 are the origin and the unit
vectors, and the children have as many vertices. -/
theorem C88_simplex_children {meg : SGroup K (List K)} {d : Nat} {ref1 ref2 children : List (List Nat)}
    (href : ref1 = List.replicate d 0 :: (List.range d).map fun j => (List.replicate d 0).set j 1)
    (hch : ∀ child ∈ children, child.length = d + 1 ∧ ∀ x ∈ child, x < ref2.length)
    (hcl : ∀ child ∈ children, ∀ origin axs T, ChildCorners .simplex ref2 child origin axs →
      ChildMap (K := K) origin axs T → ClosedUnder meg d T) : ChildrenOK meg .simplex ref1 ref2 children := by
  intro child hc
  obtain ⟨h1, h2⟩ := hch child hc
  refine ⟨by rw [h1, href]; simp, h2, ?_⟩
  intro origin axs T hcor hT
  have hcl' := hcl child hc origin axs T hcor hT
  obtain ⟨⟨n0, hn0, hor⟩, hlen, hax⟩ := hcor
  have hd : axs.length = d := by omega
  refine ⟨by rw [hd]; exact hcl', ?_⟩
  intro q x c v hq hcq hv
  subst href
  match q with
  | 0 =>
    rw [List.getElem?_cons_zero] at hcq
    cases hcq
    rw [hn0] at hq
    cases hq
    rw [hor] at hv
    cases hv
    refine ⟨by rw [List.length_replicate, hd], ?_⟩
    have := hT.corner
    rw [tupleUnitPoint, ← this, refCorner, List.map_replicate, hd]
    congr 2
    simp
  | q + 1 =>
    rw [List.getElem?_cons_succ, List.getElem?_map, Option.map_eq_some_iff] at hcq
    obtain ⟨j, hj, rfl⟩ := hcq
    obtain ⟨hjd, hj⟩ := List.getElem?_eq_some_iff.1 hj
    rw [List.length_range] at hjd
    rw [List.getElem_range] at hj
    subst hj
    obtain ⟨w, hw⟩ : ∃ w, axs[q]? = some w := ⟨_, List.getElem?_eq_getElem (by omega)⟩
    obtain ⟨n, hn, hnw⟩ := hax q w hw
    rw [hn] at hq
    cases hq
    rw [hnw] at hv
    cases hv
    refine ⟨by rw [List.length_set, List.length_replicate, hd], ?_⟩
    rw [tupleUnitPoint, ← hT.edge q v hw, refCorner, List.map_set, List.map_replicate, hd]
    congr 2
    · congr 1
      simp
    · norm_num

end

/-! ## Cases -/

/-- Linear functions on the triangle. (Example, no code.) -/
def triMeg : SGroup ℚ (List ℚ) :=
  ⟨true, 1, [[-1, -1], [1, -1], [-1, 1]], [fun x => -(x.getD 0 0 + x.getD 1 0) / 2,
    fun x => (1 + x.getD 0 0) / 2, fun x => (1 + x.getD 1 0) / 2]⟩

/-- modepy's nodes of order 1 for the triangle. (Example, no code.) -/
def triOne : List (List Nat) := [[0, 0], [1, 0], [0, 1]]

/-- The geometry for linear triangles. (Example, no code.) -/
def triGeo : Option (Geo (List (List ℚ)) (List ℚ)) :=
  polyGeo lagrangeResample triMeg .simplex triOne triRef triTess.children

/-- The two triangles of a square. (Example, no code.) -/
def squareGroup : ElGroup (List (List ℚ)) :=
  ⟨0, [[0, 1], [0, 2], [1, 2]], [[0, 1, 2], [3, 2, 1]], [[[0, 2, 0], [0, 0, 2]], [[2, 0, 2], [2, 2, 0]]]⟩

/-- The vertices of a square. (Example, no code.) -/
def squareVertices : List (List ℚ) := [[0, 0], [2, 0], [0, 2], [2, 2]]

-- both triangles are refined, then one child of each
example : (triGeo.bind fun geo => ((Refiner.init squareVertices [squareGroup] (some true)).run geo
      [[true, true], [false, true, false, false, true, false, false, false]]).map Refiner.vertices) =
    some [[0, 0], [2, 0], [0, 2], [2, 2], [1, 0], [0, 1], [1, 1], [1, 2], [2, 1],
      [3 / 2, 0], [1, 1 / 2], [3 / 2, 1 / 2], [3 / 2, 2], [2, 3 / 2], [3 / 2, 3 / 2]] := by
  decide +kernel

theorem triMeg_values {v : List ℚ} (hv : v.length = 3) : NodeValues triMeg v v := by
  match v, hv with
  | [a, b, c], _ =>
    refine ⟨rfl, rfl, ?_⟩
    intro i x hx
    match i with
    | 0 =>
      simp only [triMeg, List.getElem?_cons_zero, Option.some.injEq] at hx
      subst hx
      simp [triMeg, evalAt]
      try norm_num
    | 1 =>
      simp only [triMeg, List.getElem?_cons_succ, List.getElem?_cons_zero, Option.some.injEq] at hx
      subst hx
      simp [triMeg, evalAt]
      try norm_num
    | 2 =>
      simp only [triMeg, List.getElem?_cons_succ, List.getElem?_cons_zero, Option.some.injEq] at hx
      subst hx
      simp [triMeg, evalAt]
      try norm_num
    | i + 3 => simp [triMeg] at hx

theorem triMeg_at {nodes : List (List ℚ)} (hn : ∀ v ∈ nodes, v.length = 3) (x : List ℚ) :
    ElementAt triMeg nodes x (nodes.map fun v => evalAt triMeg.basis v x) := by
  refine ⟨by simp, ?_⟩
  intro q v hv
  exact ⟨v, triMeg_values (hn v (List.mem_of_getElem? hv)), by rw [List.getElem?_map, hv, Option.map_some]⟩

theorem tri_corners {i j k : Nat} {o a b : List Nat} (hi : triRef[i]? = some o) (hj : triRef[j]? = some a)
    (hk : triRef[k]? = some b) : ChildCorners .simplex triRef [i, j, k] o [a, b] := by
  refine ⟨⟨i, rfl, hi⟩, rfl, ?_⟩
  intro q v hv
  match q with
  | 0 => exact ⟨j, rfl, by rw [hj, ← hv]; rfl⟩
  | 1 => exact ⟨k, rfl, by rw [hk, ← hv]; rfl⟩
  | q + 2 => simp at hv

theorem tri_closed {o1 o2 a1 a2 b1 b2 : Nat} {T : List ℚ → List ℚ}
    (hT : ChildMap (K := ℚ) [o1, o2] [[a1, a2], [b1, b2]] T) : ClosedUnder triMeg 2 T := by
  intro a ha
  refine ⟨[evalAt triMeg.basis a (T [-1, -1]), evalAt triMeg.basis a (T [1, -1]),
    evalAt triMeg.basis a (T [-1, 1])], rfl, ?_⟩
  intro x hx
  have hp := childPoint_spec (K := ℚ) (origin := [o1, o2]) (axs := [[a1, a2], [b1, b2]]) (by simp)
  match x, hx, a, ha with
  | [y, z], _, [p, q, r], _ =>
    rw [C63_map_unique hT hp (x := [y, z]) rfl, C63_map_unique hT hp (x := [-1, -1]) rfl,
      C63_map_unique hT hp (x := [1, -1]) rfl, C63_map_unique hT hp (x := [-1, 1]) rfl]
    simp [childPoint, triMeg, evalAt, List.range_succ]
    ring

theorem triMeg_children : ChildrenOK triMeg .simplex triOne triRef triTess.children := by
  refine C88_simplex_children (d := 2) rfl (by decide) ?_
  intro child hc origin axs T hcor hT
  simp only [triTess, List.mem_cons, List.not_mem_nil, or_false] at hc
  rcases hc with rfl | rfl | rfl | rfl
  all_goals
    obtain ⟨rfl, rfl⟩ := hcor.unique (tri_corners rfl rfl rfl)
    exact tri_closed hT

theorem triMeg_straight (nodes : List (List ℚ)) : StraightElement triMeg 2 nodes := by
  refine C88_linear_straight lagrangeResample_sound rfl (new := []) (M := []) (by decide +kernel) ?_ nodes
  intro f hf s x y hx hy
  match x, hx, y, hy with
  | [x1, x2], _, [y1, y2], _ =>
    simp only [triMeg, List.mem_cons, List.not_mem_nil, or_false] at hf
    rcases hf with rfl | rfl | rfl
    all_goals
      simp [linePoint]
      ring

/-- The corners of linear triangles match when each row lists the points of the nodes. -/
theorem tri_match {r : Refiner (List (List ℚ)) (List ℚ)}
    (h : ∀ g ∈ r.groups, ∀ p ∈ g.vertexIndices.zip g.nodes, (∀ v ∈ p.2, v.length = 3) ∧ p.1.length = 3 ∧
      ∀ q ∈ p.1.zip triOne, r.vertices[q.1]? = some (p.2.map fun v => evalAt triMeg.basis v (refCorner q.2))) :
    CornersMatch triMeg triOne r := by
  intro g hg e row nodes hrow hnodes
  obtain ⟨h1, h2, h3⟩ := h g hg (row, nodes) (List.mem_of_getElem?
    (List.getElem?_zip_eq_some (z := (row, nodes)) |>.2 ⟨hrow, hnodes⟩))
  refine ⟨h1, h2, ?_⟩
  intro p v c hp hc
  exact ⟨_, h3 (v, c) (List.mem_of_getElem? (List.getElem?_zip_eq_some (z := (v, c)) |>.2 ⟨hp, hc⟩)),
    triMeg_at h1 _⟩

-- the hypotheses of `C88_straight_history_partial` hold for the two triangles
example : triMeg.basis.length = triMeg.nodes.length ∧ triOne.Nodup ∧ triRef.Nodup ∧
    (∀ c ∈ triOne, c.length = 2) ∧ (∀ v ∈ triRef, v.length = 2) ∧ triGeo.isSome ∧
    ChildrenOK triMeg .simplex triOne triRef triTess.children ∧
    CornersMatch triMeg triOne (Refiner.init squareVertices [squareGroup] (some true)) ∧
    AllStraight triMeg 2 (Refiner.init squareVertices [squareGroup] (some true)) ∧
    MidpointsAgree triMeg triTess triOne triRef (Refiner.init squareVertices [squareGroup] (some true))
      [true, true] 0 := by
  have hm : CornersMatch triMeg triOne (Refiner.init squareVertices [squareGroup] (some true)) :=
    tri_match (by decide +kernel)
  have hs : AllStraight triMeg 2 (Refiner.init squareVertices [squareGroup] (some true)) :=
    fun _ _ _ _ => triMeg_straight _
  refine ⟨rfl, by decide, by decide, by decide, by decide, by decide +kernel, triMeg_children, hm, hs, ?_⟩
  refine straight_agree lagrangeResample_sound rfl (new := []) (M := []) (by decide +kernel)
    (children := triTess.children) (by decide +kernel) (d := 2) (by decide) hm hs ?_ _ _
  simp [Refiner.init, TableHalfway]

/-- Two linear triangles apart from each other, each in its own group. (Example, no code.) -/
def apartLinear : Refiner (List (List ℚ)) (List ℚ) :=
  Refiner.init [[0, 0], [2, 0], [0, 2], [10, 0], [12, 0], [10, 2]]
    [⟨0, [[0, 1], [0, 2], [1, 2]], [[0, 1, 2]], [[[0, 2, 0], [0, 0, 2]]]⟩,
     ⟨0, [[0, 1], [0, 2], [1, 2]], [[3, 4, 5]], [[[10, 12, 10], [0, 0, 2]]]⟩] (some true)

/-- **C88** fails with flagged elements in two groups: after the uniform refinement of two triangles the vertices of
an element are elsewhere than the element. -/
theorem C88_groups_counterexample : apartLinear.OK ∧ CornersMatch triMeg triOne apartLinear ∧
    AllStraight triMeg 2 apartLinear ∧ ∃ geo r', triGeo = some geo ∧
      apartLinear.refine geo [true, true] = some r' ∧ ¬ CornersMatch triMeg triOne r' := by
  refine ⟨⟨by decide, by decide, by simp [apartLinear, Refiner.init, TableOK]⟩, tri_match (by decide +kernel),
    fun _ _ _ _ => triMeg_straight _, ?_⟩
  obtain ⟨geo, hgeo⟩ : ∃ geo, triGeo = some geo := Option.isSome_iff_exists.1 (by decide +kernel)
  have h1 : (triGeo.bind fun geo => apartLinear.refine geo [true, true]).bind (·.vertices[6]?) =
      some [1, 0] := by decide +kernel
  have h2 : (triGeo.bind fun geo => apartLinear.refine geo [true, true]).bind (fun r => (r.groups[1]?).bind
      (·.vertexIndices[0]?)) = some [3, 6, 7] := by decide +kernel
  have h3 : (triGeo.bind fun geo => apartLinear.refine geo [true, true]).bind (fun r => (r.groups[1]?).bind
      (·.nodes[0]?)) = some [[10, 11, 10], [0, 0, 1]] := by decide +kernel
  rw [hgeo, Option.bind_some] at h1 h2 h3
  obtain ⟨r', hr', hv⟩ := Option.bind_eq_some_iff.1 h1
  rw [hr', Option.bind_some] at h2 h3
  obtain ⟨g, hg, hrow⟩ := Option.bind_eq_some_iff.1 h2
  rw [hg, Option.bind_some] at h3
  have hnodes := h3
  refine ⟨geo, r', hgeo, hr', ?_⟩
  intro hm
  obtain ⟨_, _, m3⟩ := hm g (List.mem_of_getElem? hg) 0 _ _ hrow hnodes
  obtain ⟨pt, hpt, hat⟩ := m3 1 6 [1, 0] rfl rfl
  rw [hv] at hpt
  cases hpt
  have := elementAt_unique lagrangeResample_sound (meg := triMeg) rfl (new := []) (M := []) (by decide +kernel) hat
    (triMeg_at (by decide) _)
  revert this
  decide +kernel

end Meshmode
