import Verif.Refine.Geometry
import Verif.Mesh.Orient
import Mathlib.Algebra.BigOperators.Group.List.Lemmas

/-!
# Orientation and volume of refined elements (C112)

What `find_volume_mesh_element_orientations` (meshmode/mesh/processing.py:648-678, model in
`Verif.Mesh.Orient`) finds for a mesh made by `RefinerWithoutAdjacency.refine`
(meshmode/mesh/refinement/no_adjacency.py:84-259, model in `Verif.Refine.Model` and `Verif.Refine.Geometry`):
no new model, the two are put together.  Elements are straight, and arithmetic is exact.
-/
namespace Meshmode

open Matrix

/-! ## Specification -/

section
variable {K : Type} [Field K] {d : Nat}

/-- The vertices, as functions. (Specification or proof vocabulary, no code.) -/
def coordsOf (d : Nat) (vs : List (List K)) : List (Fin d → K) := vs.map fun p i => p.getD i 0

/-- The corner of the reference element with the given node tuple of order 1, in unit coordinates.
(Specification or proof vocabulary, no code.) -/
def cornerInts (c : List Nat) : List Int := c.map fun n : Nat => 2 * (n : Int) - 1

/-- The point of the reference element with the given node tuple of order 2.
(Specification or proof vocabulary, no code.) -/
def tuplePoint (K : Type) [Field K] (d : Nat) (v : List Nat) : Fin d → K := fun i => ((v.getD i 0 : Nat) : K) - 1

/-- The map `x ↦ L x + t` takes the corners of the reference element to those of the child.
(Specification or proof vocabulary, no code.) -/
def RefChild (ref1 ref2 : List (List Nat)) (child : List Nat) (L : Matrix (Fin d) (Fin d) K) (t : Fin d → K) :
    Prop :=
  ∀ (q x : Nat) c v, child[q]? = some x → ref1[q]? = some c → ref2[x]? = some v →
    tuplePoint K d v = L.mulVec (unitPoint K d (cornerInts c)) + t

/-- Each element is the image of the reference element under an affine map.
(Specification or proof vocabulary, no code.) -/
def AllAffine (s : GShape) (d : Nat) (r : Refiner (List (List K)) (List K)) : Prop :=
  ∀ g ∈ r.groups, ∀ row ∈ g.vertexIndices, ∃ A b, AffineElement (coordsOf d r.vertices) (unitVerts s) row A b

/-! ## Lemmas -/

theorem unitPoint_corner {c : List Nat} (hc : c.length = d) (i : Fin d) :
    unitPoint K d (cornerInts c) i = 2 * ((c.getD i 0 : Nat) : K) - 1 := by
  have hi : (i : Nat) < c.length := hc ▸ i.2
  unfold unitPoint cornerInts
  rw [List.getD_eq_getElem?_getD, List.getElem?_map, List.getElem?_eq_getElem hi, List.getD_eq_getElem?_getD,
    List.getElem?_eq_getElem hi]
  simp

theorem tuplePoint_double {c : List Nat} (hc : c.length = d) :
    tuplePoint K d (c.map (2 * ·)) = unitPoint K d (cornerInts c) := by
  funext i
  have hi : (i : Nat) < c.length := hc ▸ i.2
  rw [unitPoint_corner hc]
  unfold tuplePoint
  rw [List.getD_eq_getElem?_getD, List.getElem?_map, List.getElem?_eq_getElem hi, List.getD_eq_getElem?_getD,
    List.getElem?_eq_getElem hi]
  simp

theorem tuplePoint_midpoint [CharZero K] {a b v : List Nat} (ha : a.length = d) (hb : b.length = d)
    (h : midpointTuple (a.map (2 * ·)) (b.map (2 * ·)) = some v) (i : Fin d) :
    tuplePoint K d v i = (unitPoint K d (cornerInts a) i + unitPoint K d (cornerInts b) i) / 2 := by
  have hia : (i : Nat) < a.length := ha ▸ i.2
  have hib : (i : Nat) < b.length := hb ▸ i.2
  rw [unitPoint_corner ha, unitPoint_corner hb]
  unfold midpointTuple at h
  rw [if_pos (by simp [ha, hb])] at h
  obtain ⟨_, h2⟩ := mapM_getElem?_some h
  obtain ⟨w, hw, hw'⟩ := h2 i (2 * a[(i : Nat)], 2 * b[(i : Nat)]) (by
    rw [List.getElem?_zip_eq_some]
    simp [List.getElem?_eq_getElem hia, List.getElem?_eq_getElem hib])
  have hwv : w = a[(i : Nat)] + b[(i : Nat)] := by
    split at hw'
    · have := Option.some.inj hw'
      omega
    · cases hw'
  unfold tuplePoint
  rw [List.getD_eq_getElem?_getD, hw, List.getD_eq_getElem?_getD, List.getElem?_eq_getElem hia,
    List.getD_eq_getElem?_getD, List.getElem?_eq_getElem hib, hwv]
  simp only [Option.getD_some]
  push_cast
  ring

/-- The child of an affine element is affine. -/
theorem child_affine [CharZero K] {ref1 ref2 children : List (List Nat)} {t : Tess}
    (ht : tessInfo ref1 ref2 children = some t) (h2 : ref2.Nodup) (hd1 : ∀ c ∈ ref1, c.length = d)
    {child : List Nat} (hcl : child.length = ref1.length) (hcr : ∀ x ∈ child, x < ref2.length)
    {L : Matrix (Fin d) (Fin d) K} {u : Fin d → K} (hL : RefChild ref1 ref2 child L u)
    {vs vs' : List (Fin d → K)} (hpre : vs <+: vs') {row row' : List Nat}
    {A : Matrix (Fin d) (Fin d) K} {b : Fin d → K} (hA : AffineElement vs (ref1.map cornerInts) row A b)
    (hrl : row'.length = child.length)
    (hold : ∀ q x p : Nat, child[q]? = some x → t.origIdx[p]? = some x → row'[q]? = row[p]?)
    (hmid : ∀ (q x im a b : Nat) pair, child[q]? = some x → t.midIdx[im]? = some x →
      t.midPairs[im]? = some pair → row[pair.1]? = some a → row[pair.2]? = some b →
      ∃ m pa pb, row'[q]? = some m ∧ vs'[a]? = some pa ∧ vs'[b]? = some pb ∧
        vs'[m]? = some fun i => (pa i + pb i) / 2) :
    AffineElement vs' (ref1.map cornerInts) row' (A * L) (A.mulVec u + b) := by
  obtain ⟨t1, t2, t3, t4, t5, t6⟩ := tessInfo_spec ht
  have hkeep : ∀ (v : Nat) pt, vs[v]? = some pt → vs'[v]? = some pt := by
    intro v pt hv
    obtain ⟨l, hl'⟩ := hpre
    rw [← hl', List.getElem?_append_left (List.getElem?_eq_some_iff.1 hv).1, hv]
  refine ⟨by rw [hrl, hcl, List.length_map], ?_⟩
  intro q x0 hx0
  rw [List.getElem?_map, Option.map_eq_some_iff] at hx0
  obtain ⟨c, hc, rfl⟩ := hx0
  have hql := (List.getElem?_eq_some_iff.1 hc).1
  have hx := List.getElem?_eq_getElem (l := child) (i := q) (by omega)
  generalize child[q] = x at hx
  have hxr : x < ref2.length := hcr x (List.mem_of_getElem? hx)
  obtain ⟨rv, hrv⟩ : ∃ rv, ref2[x]? = some rv := ⟨_, List.getElem?_eq_getElem hxr⟩
  have hpoint : (A * L).mulVec (unitPoint K d (cornerInts c)) + (A.mulVec u + b) =
      A.mulVec (tuplePoint K d rv) + b := by
    rw [hL q x c rv hx hc hrv, Matrix.mulVec_add, Matrix.mulVec_mulVec, add_assoc]
  have huniq : ∀ y : Nat, ref2[y]? = some rv → y = x := by
    intro y hy
    exact (List.getElem?_inj (List.getElem?_eq_some_iff.1 hy).1 h2).1 (by rw [hy, hrv])
  by_cases ho : rv ∈ ref1.map fun v => v.map (2 * ·)
  · obtain ⟨p, hp⟩ := List.mem_iff_getElem?.1 ho
    have e1 : (t.origIdx.map (ref2[·]?))[p]? = some (some rv) := by
      rw [t3, List.getElem?_map, hp, Option.map_some]
    rw [List.getElem?_map, Option.map_eq_some_iff] at e1
    obtain ⟨y, hy, hy'⟩ := e1
    rw [huniq y hy'] at hy
    rw [List.getElem?_map, Option.map_eq_some_iff] at hp
    obtain ⟨c0, hc0, rfl⟩ := hp
    obtain ⟨v, pt, hv, hpt, rfl⟩ := hA.2 p (cornerInts c0) (by rw [List.getElem?_map, hc0, Option.map_some])
    refine ⟨v, _, by rw [hold q x p hx hy, hv], hkeep _ _ hpt, ?_⟩
    rw [hpoint, tuplePoint_double (hd1 c0 (List.mem_of_getElem? hc0))]
  · have hmid' : rv ∈ refMidpoints ref1 ref2 := by
      unfold refMidpoints
      rw [List.mem_filter]
      refine ⟨List.mem_of_getElem? hrv, ?_⟩
      rw [Bool.not_eq_true', ← Bool.not_eq_true, List.contains_iff_mem]
      exact ho
    obtain ⟨im, him⟩ := List.mem_iff_getElem?.1 hmid'
    have e1 : (t.midIdx.map (ref2[·]?))[im]? = some (some rv) := by
      rw [t4, List.getElem?_map, him, Option.map_some]
    rw [List.getElem?_map, Option.map_eq_some_iff] at e1
    obtain ⟨y, hy, hy'⟩ := e1
    rw [huniq y hy'] at hy
    have himl := (List.getElem?_eq_some_iff.1 him).1
    obtain ⟨pair, hpair⟩ : ∃ pair, t.midPairs[im]? = some pair :=
      ⟨_, List.getElem?_eq_getElem (by omega)⟩
    obtain ⟨ca, cb, hca, hcb, hmt⟩ := t6 im pair rv hpair him
    obtain ⟨va, pa, hva, hpa, rfl⟩ := hA.2 pair.1 (cornerInts ca) (by rw [List.getElem?_map, hca, Option.map_some])
    obtain ⟨vb, pb, hvb, hpb, rfl⟩ := hA.2 pair.2 (cornerInts cb) (by rw [List.getElem?_map, hcb, Option.map_some])
    obtain ⟨m, pa', pb', m1, m2, m3, m4⟩ := hmid q x im va vb pair hx hy hpair hva hvb
    rw [hkeep _ _ hpa] at m2
    rw [hkeep _ _ hpb] at m3
    cases m2
    cases m3
    refine ⟨m, _, m1, m4, ?_⟩
    rw [hpoint]
    funext i
    have key : tuplePoint K d rv = (1 / 2 : K) • (unitPoint K d (cornerInts ca) + unitPoint K d (cornerInts cb)) := by
      funext j
      rw [tuplePoint_midpoint (hd1 ca (List.mem_of_getElem? hca)) (hd1 cb (List.mem_of_getElem? hcb)) hmt j]
      simp only [Pi.smul_apply, Pi.add_apply, smul_eq_mul]
      ring
    rw [key, Matrix.mulVec_smul, Matrix.mulVec_add]
    simp only [Pi.add_apply, Pi.smul_apply, smul_eq_mul]
    ring

theorem coordsOf_getElem? {vs : List (List K)} {v : Nat} {p : List K} (h : vs[v]? = some p) :
    (coordsOf d vs)[v]? = some fun i : Fin d => p.getD i 0 := by
  unfold coordsOf
  rw [List.getElem?_map, h, Option.map_some]

theorem linePoint_half_coords [CharZero K] {p q : List K} (h : p.length = q.length) (i : Nat) :
    (linePoint (1 / 2 : K) p q).getD i 0 = (p.getD i 0 + q.getD i 0) / 2 := by
  by_cases hi : i < p.length
  · rw [List.getD_eq_getElem?_getD, linePoint_getElem? (1 / 2 : K) (List.getElem?_eq_getElem hi)
      (List.getElem?_eq_getElem (h ▸ hi)), List.getD_eq_getElem?_getD, List.getElem?_eq_getElem hi,
      List.getD_eq_getElem?_getD, List.getElem?_eq_getElem (h ▸ hi)]
    simp only [Option.getD_some]
    ring
  · rw [List.getD_eq_getElem?_getD, List.getElem?_eq_none (by rw [linePoint, List.length_zipWith]; omega),
      List.getD_eq_getElem?_getD, List.getElem?_eq_none (by omega), List.getD_eq_getElem?_getD,
      List.getElem?_eq_none (by omega)]
    simp

/-! ## Properties -/

/-- **C112**: a child of an element that is the image of the reference element under `x ↦ A x + b` is the image of
the reference element under this map after `x ↦ L x + u`, which takes the corners of the reference element to
those of the child of the reference element.  So the orientation of the child is that of the parent times the
determinant of `L`. -/
theorem C112_child_map [CharZero K] [DecidableEq K]
    {resample : List (List K → K) → List (List K) → List (List K) → Option (Mat K)}
    (hr : ResampleSound resample) {meg : SGroup K (List K)} (hl : meg.basis.length = meg.nodes.length)
    {sh : ChildShape} {ref1 ref2 children : List (List Nat)} (h1 : ref1.Nodup) (h2 : ref2.Nodup)
    (hd1 : ∀ c ∈ ref1, c.length = d) (hd : ∀ v ∈ ref2, v.length = d) {geo : Geo (List (List K)) (List K)}
    (hgeo : polyGeo resample meg sh ref1 ref2 children = some geo)
    (hch : ChildrenOK meg sh ref1 ref2 children)
    {r r' : Refiner (List (List K)) (List K)} (hok : r.OK) (hmatch : CornersMatch meg ref1 r)
    (hs : AllStraight meg d r) (htab : TableHalfway r)
    {flags : List Bool} (h : r.refine geo flags = some r') {k : Nat} (hk : r.FlagsIn flags k)
    {s : GShape} (hsc : s.Corners d) (hsu : unitVerts s = ref1.map cornerInts)
    {g : ElGroup (List (List K))} (hg : r.groups[k]? = some g) :
    ∃ g' t mapping, r'.groups[k]? = some g' ∧ r'.records[k]? = some (t, mapping) ∧
      ∀ (e : Nat) c row A b, r.flagOf flags k e = some true → mapping[e]? = some c →
        g.vertexIndices[e]? = some row → AffineElement (coordsOf d r.vertices) (unitVerts s) row A b →
        ∀ (j n : Nat) child L u, c[j]? = some n → children[j]? = some child → RefChild ref1 ref2 child L u →
          ∃ row', g'.vertexIndices[n]? = some row' ∧
            AffineElement (coordsOf d r'.vertices) (unitVerts s) row' (A * L) (A.mulVec u + b) ∧
            elemOrient (coordsOf d r'.vertices) (unitVerts s) row' =
              (elemOrient (coordsOf d r.vertices) (unitVerts s) row).map (· * L.det) := by
  obtain ⟨g1, g2⟩ := polyGeo_ok hgeo h1 h2
  obtain ⟨t, mapped, Mm, Mc, ht, hm, hMm, hMc, hgeq⟩ := polyGeo_spec hgeo
  obtain ⟨_, _, _, htab'⟩ := C88_straight_partial hr hl h1 h2 hd1 hd hgeo hch hok hmatch hs htab h hk
  obtain ⟨_, hpre, _, hnum⟩ := C19_new_vertices_partial g1 g2 hok h hk
  obtain ⟨g', mapping, num, n1, n2, n3, _, n5⟩ := hnum g hg
  obtain ⟨t1, t2, t3, t4, t5, t6⟩ := tessInfo_spec ht
  have htess : geo.tess g = t := by rw [hgeq]
  rw [htess] at n2 n3 n5
  have hgm := List.mem_of_getElem? hg
  have hpre' : coordsOf d r.vertices <+: coordsOf d r'.vertices := by
    obtain ⟨l, hl'⟩ := hpre
    exact ⟨l.map fun p i => p.getD i 0, by rw [← hl']; simp [coordsOf]⟩
  refine ⟨g', t, mapping, n1, n2, ?_⟩
  intro e c row A b hfl hc hrow hA j n child L u hj hchild hL
  obtain ⟨row0, hrow0, hrows⟩ := n3 e c hfl hc
  rw [hrow] at hrow0
  cases hrow0
  obtain ⟨row', hrow', hlen, hq⟩ := hrows j n child hj (by rw [t1]; exact hchild)
  obtain ⟨k1, k3, _⟩ := hch child (List.mem_of_getElem? hchild)
  have he : e < g.nelements := by
    rw [ElGroup.nelements, ← hok.1 g hgm]
    exact (List.getElem?_eq_some_iff.1 hrow).1
  have hnodes := List.getElem?_eq_getElem (l := g.nodes) (i := e) he
  generalize g.nodes[e] = nodes at hnodes
  obtain ⟨m1, m2, m3⟩ := hmatch g hgm e row nodes hrow hnodes
  have haff : AffineElement (coordsOf d r'.vertices) (ref1.map cornerInts) row' (A * L) (A.mulVec u + b) := by
    refine child_affine ht h2 hd1 k1 k3 hL hpre' (hsu ▸ hA) hlen (fun q x p hx hp => (hq q x hx).1 p hp) ?_
    intro q x im a b pair hx him hpair ha hb
    obtain ⟨o1, o2, _⟩ := n5 e im a b pair row he hfl hrow hpair ha hb
    obtain ⟨pa, pb, p1, p2, p3⟩ := htab' a b _ o1
    have himl : im < (refMidpoints ref1 ref2).length := by
      rw [← t5]
      exact (List.getElem?_eq_some_iff.1 hpair).1
    obtain ⟨ca, cb, hca, hcb, _⟩ := t6 im pair _ hpair (List.getElem?_eq_getElem himl)
    obtain ⟨pa', q1, q2⟩ := m3 _ _ _ ha hca
    obtain ⟨pb', q3, q4⟩ := m3 _ _ _ hb hcb
    have hkeep : ∀ (v : Nat) pt, r.vertices[v]? = some pt → r'.vertices[v]? = some pt := by
      intro v pt hv
      obtain ⟨l, hl'⟩ := hpre
      rw [← hl', List.getElem?_append_left (List.getElem?_eq_some_iff.1 hv).1, hv]
    rw [hkeep _ _ q1] at p1
    rw [hkeep _ _ q3] at p2
    cases p1
    cases p2
    refine ⟨num e im, _, _, (hq q x hx).2 im him, coordsOf_getElem? (hkeep _ _ q1),
      coordsOf_getElem? (hkeep _ _ q3), ?_⟩
    rw [coordsOf_getElem? p3]
    congr 1
    funext i
    rw [linePoint_half_coords (by rw [q2.1, q4.1])]
  rw [← hsu] at haff
  refine ⟨row', hrow', haff, ?_⟩
  rw [elemOrient_affine hsc haff, elemOrient_affine hsc hA, Option.map_some, Matrix.det_mul]
  congr 1
  ring

theorem AffineElement.prefix {vs vs' : List (Fin d → K)} (h : vs <+: vs') {uv : List (List Int)} {row : List Nat}
    {A : Matrix (Fin d) (Fin d) K} {b : Fin d → K} (hA : AffineElement vs uv row A b) :
    AffineElement vs' uv row A b := by
  refine ⟨hA.1, ?_⟩
  intro k x hx
  obtain ⟨v, p, h1, h2, h3⟩ := hA.2 k x hx
  refine ⟨v, p, h1, ?_, h3⟩
  obtain ⟨l, hl'⟩ := h
  rw [← hl', List.getElem?_append_left (List.getElem?_eq_some_iff.1 h2).1, h2]

theorem refine_kinds {N P : Type} {geo : Geo N P} {r r' : Refiner N P} {flags : List Bool}
    (h : r.refine geo flags = some r') {i : Nat} {g g' : ElGroup N} (hg : r.groups[i]? = some g)
    (hg' : r'.groups[i]? = some g') : g'.kind = g.kind := by
  unfold Refiner.refine at h
  split at h
  · simp at h
  rename_i hlen
  simp only at h
  split at h
  · simp at h
  rename_i gs table added hgs
  cases h
  obtain ⟨f, hf, _⟩ := refineFlags_getElem? hg (not_not.1 hlen)
  obtain ⟨tab, ad, g2, s, h1, h2⟩ := (refineGroups_getElem hgs).2 i g f
    ((List.getElem?_zip_eq_some (z := (g, f))).2 ⟨hg, hf⟩)
  simp only at hg'
  rw [hg'] at h2
  cases h2
  unfold refineGroup at h1
  split at h1
  · cases h1
  split at h1
  · cases h1
    rfl
  · cases h1

/-- The affine maps of the children of the reference element. (Specification or proof vocabulary, no code.) -/
def RefChildren (ref1 ref2 children : List (List Nat)) (maps : List (Matrix (Fin d) (Fin d) K × (Fin d → K))) :
    Prop :=
  maps.length = children.length ∧ ∀ (j : Nat) child m, children[j]? = some child → maps[j]? = some m →
    RefChild ref1 ref2 child m.1 m.2

/-- The orientations of all elements of a group, in order. (Specification or proof vocabulary, no code.) -/
def rowOrients (s : GShape) (vs : List (Fin d → K)) (rows : List (List Nat)) : List (Option K) :=
  rows.map (elemOrient vs (unitVerts s))

/-- **C112**: a mesh of affine elements is one of affine elements after a refinement; the orientation of an
element that is not refined stays, and the orientations of the children of another are its orientation times the
determinants for the children of the reference element. -/
theorem C112_orientations [CharZero K] [DecidableEq K]
    {resample : List (List K → K) → List (List K) → List (List K) → Option (Mat K)}
    (hr : ResampleSound resample) {meg : SGroup K (List K)} (hl : meg.basis.length = meg.nodes.length)
    {sh : ChildShape} {ref1 ref2 children : List (List Nat)} (h1 : ref1.Nodup) (h2 : ref2.Nodup)
    (hd1 : ∀ c ∈ ref1, c.length = d) (hd : ∀ v ∈ ref2, v.length = d) {geo : Geo (List (List K)) (List K)}
    (hgeo : polyGeo resample meg sh ref1 ref2 children = some geo)
    (hch : ChildrenOK meg sh ref1 ref2 children)
    {r r' : Refiner (List (List K)) (List K)} (hok : r.OK) (hmatch : CornersMatch meg ref1 r)
    (hs : AllStraight meg d r) (htab : TableHalfway r)
    {flags : List Bool} (h : r.refine geo flags = some r') {k : Nat} (hk : r.FlagsIn flags k)
    {s : GShape} (hsc : s.Corners d) (hsu : unitVerts s = ref1.map cornerInts)
    {maps : List (Matrix (Fin d) (Fin d) K × (Fin d → K))} (hmaps : RefChildren ref1 ref2 children maps)
    (haff : AllAffine s d r) :
    AllAffine s d r' ∧ r'.groups.length = r.groups.length ∧
    ∀ (i : Nat) g, r.groups[i]? = some g → ∃ g' t mapping, r'.groups[i]? = some g' ∧
      r'.records[i]? = some (t, mapping) ∧ ExactMapping mapping g.nelements g'.nelements ∧
      ∀ (e : Nat) row c, g.vertexIndices[e]? = some row → mapping[e]? = some c →
        ∃ o, elemOrient (coordsOf d r.vertices) (unitVerts s) row = some o ∧
          (r.flagOf flags i e = some false →
            c.map (fun n => (rowOrients s (coordsOf d r'.vertices) g'.vertexIndices)[n]?) = [some (some o)]) ∧
          (r.flagOf flags i e = some true →
            c.map (fun n => (rowOrients s (coordsOf d r'.vertices) g'.vertexIndices)[n]?) =
              maps.map fun m => some (some (o * m.1.det))) := by
  obtain ⟨g1, g2⟩ := polyGeo_ok hgeo h1 h2
  obtain ⟨t, mapped, Mm, Mc, ht, hm, hMm, hMc, hgeq⟩ := polyGeo_spec hgeo
  obtain ⟨_, hpre, _, _⟩ := C19_new_vertices_partial g1 g2 hok h hk
  have hpre' : coordsOf d r.vertices <+: coordsOf d r'.vertices := by
    obtain ⟨l, hl'⟩ := hpre
    exact ⟨l.map fun p i => p.getD i 0, by rw [← hl']; simp [coordsOf]⟩
  obtain ⟨c1, c2, c3, c4⟩ := C20_refine_elements g1 hok.1 h
  -- every child, with its map
  have key : ∀ (i : Nat) g, r.groups[i]? = some g → ∃ g' t mapping, r'.groups[i]? = some g' ∧
      r'.records[i]? = some (t, mapping) ∧ ExactMapping mapping g.nelements g'.nelements ∧
      ∀ (e : Nat) row c, g.vertexIndices[e]? = some row → mapping[e]? = some c →
        ∃ o A b, AffineElement (coordsOf d r.vertices) (unitVerts s) row A b ∧
          elemOrient (coordsOf d r.vertices) (unitVerts s) row = some o ∧
          (r.flagOf flags i e = some false → ∃ n, c = [n] ∧ g'.vertexIndices[n]? = some row) ∧
          (r.flagOf flags i e = some true → c.length = maps.length ∧
            ∀ (j n : Nat) m, c[j]? = some n → maps[j]? = some m → ∃ row', g'.vertexIndices[n]? = some row' ∧
              (∃ A' b', AffineElement (coordsOf d r'.vertices) (unitVerts s) row' A' b') ∧
              elemOrient (coordsOf d r'.vertices) (unitVerts s) row' = some (o * m.1.det)) := by
    intro i g hg
    have hgm := List.mem_of_getElem? hg
    obtain ⟨g', mapping, d1, d2, d3, d4⟩ := c4 i g hg
    refine ⟨g', _, mapping, d1, d2, d3, ?_⟩
    intro e row c hrow hc
    obtain ⟨A, b, hA⟩ := haff g hgm row (List.mem_of_getElem? hrow)
    refine ⟨_, A, b, hA, elemOrient_affine hsc hA, ?_, ?_⟩
    · intro hf
      obtain ⟨n, rfl, e1, _⟩ := (d4 e c hc).1 hf
      exact ⟨n, rfl, by rw [e1, hrow]⟩
    · intro hf
      have hik : i = k := by
        by_contra hik
        have := hk i g e hik hg (by
          rw [ElGroup.nelements, ← hok.1 g hgm]
          exact (List.getElem?_eq_some_iff.1 hrow).1)
        rw [hf] at this
        simp at this
      subst hik
      obtain ⟨g'', t'', mapping'', f1, f2, f3⟩ := C112_child_map hr hl h1 h2 hd1 hd hgeo hch hok hmatch hs htab h hk
        hsc hsu hg
      rw [d1] at f1
      cases f1
      rw [d2] at f2
      cases f2
      have hcl : (geo.tess g).children.length = maps.length := by
        rw [hmaps.1, hgeq]
        simp only
        rw [(tessInfo_spec ht).1]
      refine ⟨by rw [((d4 e c hc).2 hf).1, hcl], ?_⟩
      intro j n m hj hmj
      have hjl : j < children.length := by
        rw [← hmaps.1]
        exact (List.getElem?_eq_some_iff.1 hmj).1
      have hchild := List.getElem?_eq_getElem hjl
      obtain ⟨row', h3, h4, h5⟩ := f3 e c row A b hf hc hrow hA j n _ m.1 m.2 hj hchild
        (hmaps.2 j _ m hchild hmj)
      refine ⟨row', h3, ⟨_, _, h4⟩, ?_⟩
      rw [h5, elemOrient_affine hsc hA, Option.map_some]
  have hflag : ∀ (i : Nat) (g : ElGroup (List (List K))) (e : Nat), r.groups[i]? = some g → e < g.nelements → ∃ b, r.flagOf flags i e = some b := by
    intro i g e hg hel
    unfold Refiner.refine at h
    split at h
    · simp at h
    rename_i hlen
    obtain ⟨f, _, hfl, hfe⟩ := refineFlags_getElem? hg (not_not.1 hlen)
    have hef : e < f.length := by omega
    exact ⟨f[e]'hef, by unfold Refiner.flagOf; rw [← hfe e hel, List.getElem?_eq_getElem hef]⟩
  refine ⟨?_, c1, ?_⟩
  · intro g' hg' row' hrow'
    obtain ⟨i, hi⟩ := List.mem_iff_getElem?.1 hg'
    obtain ⟨n, hn⟩ := List.mem_iff_getElem?.1 hrow'
    obtain ⟨g, hg⟩ : ∃ g, r.groups[i]? = some g := ⟨_, List.getElem?_eq_getElem (by
      rw [← c1]; exact (List.getElem?_eq_some_iff.1 hi).1)⟩
    obtain ⟨g'', t', mapping, d1, d2, d3, d4⟩ := key i g hg
    rw [hi] at d1
    cases d1
    have hnl : n < g'.nelements := by
      rw [ElGroup.nelements, ← c3 g' hg']
      exact (List.getElem?_eq_some_iff.1 hn).1
    obtain ⟨e, ⟨c, hc, hnc⟩, _⟩ := d3.parent hnl
    have hel : e < g.nelements := by
      rw [← d3.1]
      exact (List.getElem?_eq_some_iff.1 hc).1
    have hrow := List.getElem?_eq_getElem (l := g.vertexIndices) (i := e) (by
      rw [hok.1 g (List.mem_of_getElem? hg)]; exact hel)
    obtain ⟨o, A, b, hA, _, k1, k2⟩ := d4 e _ c hrow hc
    obtain ⟨fl, hfl⟩ := hflag i g e hg hel
    cases fl with
    | false =>
      obtain ⟨n', rfl, h3⟩ := k1 hfl
      rw [List.mem_singleton] at hnc
      subst hnc
      rw [hn] at h3
      cases h3
      exact ⟨A, b, hA.prefix hpre'⟩
    | true =>
      obtain ⟨h3, h4⟩ := k2 hfl
      obtain ⟨j, hj⟩ := List.mem_iff_getElem?.1 hnc
      have hjm := List.getElem?_eq_getElem (l := maps) (i := j) (by
        rw [← h3]; exact (List.getElem?_eq_some_iff.1 hj).1)
      obtain ⟨row2, h5, h6, _⟩ := h4 j n _ hj hjm
      rw [hn] at h5
      cases h5
      exact h6
  · intro i g hg
    obtain ⟨g', t', mapping, d1, d2, d3, d4⟩ := key i g hg
    refine ⟨g', t', mapping, d1, d2, d3, ?_⟩
    intro e row c hrow hc
    obtain ⟨o, A, b, hA, ho, k1, k2⟩ := d4 e row c hrow hc
    refine ⟨o, ho, ?_, ?_⟩
    · intro hf
      obtain ⟨n, rfl, h3⟩ := k1 hf
      simp only [List.map_cons, List.map_nil, rowOrients, List.getElem?_map, h3, Option.map_some]
      rw [elemOrient_affine hsc (hA.prefix hpre'), ← elemOrient_affine hsc hA, ho]
    · intro hf
      obtain ⟨h3, h4⟩ := k2 hf
      apply List.ext_getElem?
      intro j
      rw [List.getElem?_map, List.getElem?_map]
      by_cases hj : j < c.length
      · have e1 := List.getElem?_eq_getElem hj
        have e2 := List.getElem?_eq_getElem (l := maps) (i := j) (by omega)
        obtain ⟨row', h5, _, h6⟩ := h4 j _ _ e1 e2
        rw [e1, e2, Option.map_some, Option.map_some, rowOrients, List.getElem?_map, h5, Option.map_some, h6]
      · rw [List.getElem?_eq_none (by omega), List.getElem?_eq_none (by omega)]
        rfl

/-- The sum of the orientations. (Specification or proof vocabulary, no code.) -/
def totalOrient (os : List (Option K)) : K := (os.map (·.getD 0)).sum

theorem list_blocks {α : Type} {l : List α} {mapping : List (List Nat)} {n m : Nat} (h : ExactMapping mapping n m)
    (hl : l.length = m) : l.map some = (mapping.map fun c => c.map (l[·]?)).flatten := by
  rw [← List.map_flatten, h.2]
  apply List.ext_getElem?
  intro i
  rw [List.getElem?_map, List.getElem?_map]
  by_cases hi : i < l.length
  · rw [List.getElem?_range (by omega), List.getElem?_eq_getElem hi]
    simp [hi]
  · rw [List.getElem?_eq_none (by omega), List.getElem?_eq_none (by rw [List.length_range]; omega)]
    rfl

theorem total_some (l : List (Option K)) :
    totalOrient l = ((l.map some).map fun x => (x.getD none).getD 0).sum := by
  unfold totalOrient
  rw [List.map_map]
  rfl

theorem sum_mul_left (o : K) (l : List K) : (l.map (o * ·)).sum = o * l.sum := by
  induction l with
  | nil => simp
  | cons a l ih => simp only [List.map_cons, List.sum_cons, ih]; ring

theorem totalOrient_flatten (l : List (List (Option K))) :
    totalOrient l.flatten = (l.map totalOrient).sum := by
  induction l with
  | nil => simp [totalOrient]
  | cons a l ih =>
    rw [List.flatten_cons, List.map_cons, List.sum_cons, ← ih]
    simp [totalOrient]

/-- What one refinement does to the orientations of a mesh of affine elements, group by group.
(Specification or proof vocabulary, no code.) -/
def SplitsOrients (s : GShape) (d : Nat) (dets : List K)
    (r r' : Refiner (List (List K)) (List K)) : Prop :=
  r'.groups.length = r.groups.length ∧
  ∀ (i : Nat) g, r.groups[i]? = some g → ∃ g' mapping, r'.groups[i]? = some g' ∧ g'.kind = g.kind ∧
    ExactMapping mapping g.nelements g'.nelements ∧ g.vertexIndices.length = g.nelements ∧
    g'.vertexIndices.length = g'.nelements ∧
    ∀ (e : Nat) row c, g.vertexIndices[e]? = some row → mapping[e]? = some c →
      ∃ o, elemOrient (coordsOf d r.vertices) (unitVerts s) row = some o ∧
        (c.map (fun n => (rowOrients s (coordsOf d r'.vertices) g'.vertexIndices)[n]?) = [some (some o)] ∨
          c.map (fun n => (rowOrients s (coordsOf d r'.vertices) g'.vertexIndices)[n]?) =
            dets.map fun x => some (some (o * x)))

theorem SplitsOrients.group_total {s : GShape} {dets : List K}
    {r r' : Refiner (List (List K)) (List K)} (h : SplitsOrients s d dets r r') (hdet : dets.sum = 1)
    {i : Nat} {g g' : ElGroup (List (List K))} (hg : r.groups[i]? = some g) (hg' : r'.groups[i]? = some g') :
    totalOrient (rowOrients s (coordsOf d r'.vertices) g'.vertexIndices) =
      totalOrient (rowOrients s (coordsOf d r.vertices) g.vertexIndices) := by
  obtain ⟨g2, mapping, h1, _, h2, h3, h4, h5⟩ := h.2 i g hg
  rw [hg'] at h1
  cases h1
  rw [total_some, list_blocks h2 (by rw [rowOrients, List.length_map, h4]), List.map_flatten, List.sum_flatten,
    List.map_map, List.map_map, totalOrient]
  congr 1
  apply List.ext_getElem?
  intro e
  rw [List.getElem?_map, List.getElem?_map,
    show (rowOrients s (coordsOf d r.vertices) g.vertexIndices)[e]? =
      g.vertexIndices[e]?.map (elemOrient (coordsOf d r.vertices) (unitVerts s)) from List.getElem?_map ..]
  by_cases he : e < g.vertexIndices.length
  · have e1 := List.getElem?_eq_getElem he
    have e2 := List.getElem?_eq_getElem (l := mapping) (i := e) (by rw [h2.1]; omega)
    obtain ⟨o, ho, hc⟩ := h5 e _ _ e1 e2
    rw [e1, e2, Option.map_some, Option.map_some, Option.map_some, ho]
    congr 1
    simp only [Function.comp]
    rcases hc with hc | hc
    · rw [hc]
      simp
    · rw [hc, List.map_map]
      have : ((fun x : Option (Option K) => (x.getD none).getD 0) ∘ fun x => some (some (o * x))) = (o * ·) := rfl
      rw [this, sum_mul_left, hdet]
      simp
  · rw [List.getElem?_eq_none (by rw [h2.1]; omega), List.getElem?_eq_none (by omega)]
    rfl

theorem SplitsOrients.positive [LinearOrder K] [IsStrictOrderedRing K] {s : GShape}
    {dets : List K} {r r' : Refiner (List (List K)) (List K)} (h : SplitsOrients s d dets r r')
    (hdet : ∀ x ∈ dets, 0 < x)
    (hpos : ∀ g ∈ r.groups, ∀ row ∈ g.vertexIndices, ∀ o,
      elemOrient (coordsOf d r.vertices) (unitVerts s) row = some o → 0 < o) :
    ∀ g ∈ r'.groups, ∀ row ∈ g.vertexIndices, ∀ o,
      elemOrient (coordsOf d r'.vertices) (unitVerts s) row = some o → 0 < o := by
  intro g' hg' row' hrow' o' ho'
  obtain ⟨i, hi⟩ := List.mem_iff_getElem?.1 hg'
  obtain ⟨n, hn⟩ := List.mem_iff_getElem?.1 hrow'
  obtain ⟨g, hg⟩ : ∃ g, r.groups[i]? = some g := ⟨_, List.getElem?_eq_getElem (by
    rw [← h.1]; exact (List.getElem?_eq_some_iff.1 hi).1)⟩
  obtain ⟨g2, mapping, h1, _, h2, h3, h4, h5⟩ := h.2 i g hg
  rw [hi] at h1
  cases h1
  obtain ⟨e, ⟨c, hc, hnc⟩, _⟩ := h2.parent (k := n) (by
    rw [← h4]; exact (List.getElem?_eq_some_iff.1 hn).1)
  have hrow := List.getElem?_eq_getElem (l := g.vertexIndices) (i := e) (by
    rw [h3, ← h2.1]; exact (List.getElem?_eq_some_iff.1 hc).1)
  obtain ⟨o, ho, hcase⟩ := h5 e _ c hrow hc
  have ho0 : 0 < o := hpos g (List.mem_of_getElem? hg) _ (List.mem_of_getElem? hrow) o ho
  have hmem : some (some o') ∈ c.map
      (fun n => (rowOrients s (coordsOf d r'.vertices) g'.vertexIndices)[n]?) := by
    refine List.mem_map.2 ⟨n, hnc, ?_⟩
    rw [rowOrients, List.getElem?_map, hn, Option.map_some, ho']
  rcases hcase with hcase | hcase
  · rw [hcase] at hmem
    simp only [List.mem_singleton, Option.some.injEq] at hmem
    rw [hmem]
    exact ho0
  · rw [hcase, List.mem_map] at hmem
    obtain ⟨x, hx, hx'⟩ := hmem
    simp only [Option.some.injEq] at hx'
    rw [← hx']
    exact mul_pos ho0 (hdet x hx)

theorem splitsOrients [CharZero K] [DecidableEq K]
    {resample : List (List K → K) → List (List K) → List (List K) → Option (Mat K)}
    (hr : ResampleSound resample) {meg : SGroup K (List K)} (hl : meg.basis.length = meg.nodes.length)
    {sh : ChildShape} {ref1 ref2 children : List (List Nat)} (h1 : ref1.Nodup) (h2 : ref2.Nodup)
    (hd1 : ∀ c ∈ ref1, c.length = d) (hd : ∀ v ∈ ref2, v.length = d) {geo : Geo (List (List K)) (List K)}
    (hgeo : polyGeo resample meg sh ref1 ref2 children = some geo)
    (hch : ChildrenOK meg sh ref1 ref2 children)
    {r r' : Refiner (List (List K)) (List K)} (hok : r.OK) (hmatch : CornersMatch meg ref1 r)
    (hs : AllStraight meg d r) (htab : TableHalfway r)
    {flags : List Bool} (h : r.refine geo flags = some r') {k : Nat} (hk : r.FlagsIn flags k)
    {s : GShape} (hsc : s.Corners d) (hsu : unitVerts s = ref1.map cornerInts)
    {maps : List (Matrix (Fin d) (Fin d) K × (Fin d → K))} (hmaps : RefChildren ref1 ref2 children maps)
    (haff : AllAffine s d r) :
    AllAffine s d r' ∧ SplitsOrients s d (maps.map fun m => m.1.det) r r' := by
  obtain ⟨o1, o2, o3⟩ := C112_orientations hr hl h1 h2 hd1 hd hgeo hch hok hmatch hs htab h hk hsc hsu hmaps haff
  obtain ⟨g1, _⟩ := polyGeo_ok hgeo h1 h2
  obtain ⟨_, _, c3, _⟩ := C20_refine_elements g1 hok.1 h
  refine ⟨o1, o2, ?_⟩
  intro i g hg
  obtain ⟨g', t, mapping, d1, d2, d3, d4⟩ := o3 i g hg
  refine ⟨g', mapping, d1, refine_kinds h hg d1, d3, hok.1 g (List.mem_of_getElem? hg),
    c3 g' (List.mem_of_getElem? d1), ?_⟩
  intro e row c hrow hc
  obtain ⟨o, e1, e2, e3⟩ := d4 e row c hrow hc
  refine ⟨o, e1, ?_⟩
  have hel : e < g.nelements := by
    rw [← d3.1]
    exact (List.getElem?_eq_some_iff.1 hc).1
  have hflag : ∃ b, r.flagOf flags i e = some b := by
    unfold Refiner.refine at h
    split at h
    · simp at h
    rename_i hlen
    obtain ⟨f, _, hfl, hfe⟩ := refineFlags_getElem? hg (not_not.1 hlen)
    have hef : e < f.length := by omega
    exact ⟨f[e]'hef, by unfold Refiner.flagOf; rw [← hfe e hel, List.getElem?_eq_getElem hef]⟩
  obtain ⟨b, hb⟩ := hflag
  cases b with
  | false => exact .inl (e2 hb)
  | true =>
    right
    rw [e3 hb, List.map_map]
    rfl

theorem AllAffine.orients {s : GShape} (hsc : s.Corners d) (hd0 : d ≠ 0)
    {r : Refiner (List (List K)) (List K)} (h : AllAffine s d r) {shape : Nat → GShape}
    (hshape : ∀ g ∈ r.groups, shape g.kind = s) (tol : Bool) :
    orientLoop shape (coordsOf d r.vertices) tol r.groups =
      .ok (r.groups.map fun g => rowOrients s (coordsOf d r.vertices) g.vertexIndices).flatten := by
  rw [orientLoop_ok tol hd0 (fun g hg => by rw [hshape g hg]; exact hsc)]
  · rw [List.flatMap_def]
    congr 2
    apply List.map_congr_left
    intro g hg
    rw [hshape g hg]
    rfl
  · intro g hg row hrow
    obtain ⟨A, b, hA⟩ := h g hg row hrow
    rw [hshape g hg]
    exact ⟨_, elemOrient_affine hsc hA⟩

theorem SplitsOrients.kinds {s : GShape} {dets : List K}
    {r r' : Refiner (List (List K)) (List K)} (h : SplitsOrients s d dets r r') {shape : Nat → GShape}
    (hshape : ∀ g ∈ r.groups, shape g.kind = s) : ∀ g ∈ r'.groups, shape g.kind = s := by
  intro g' hg'
  obtain ⟨i, hi⟩ := List.mem_iff_getElem?.1 hg'
  obtain ⟨g, hg⟩ : ∃ g, r.groups[i]? = some g := ⟨_, List.getElem?_eq_getElem (by
    rw [← h.1]; exact (List.getElem?_eq_some_iff.1 hi).1)⟩
  obtain ⟨g2, mapping, h1, h2, _⟩ := h.2 i g hg
  rw [hi] at h1
  cases h1
  rw [h2]
  exact hshape g (List.mem_of_getElem? hg)

theorem SplitsOrients.total {s : GShape} {dets : List K}
    {r r' : Refiner (List (List K)) (List K)} (h : SplitsOrients s d dets r r') (hdet : dets.sum = 1) :
    totalOrient (r'.groups.map fun g => rowOrients s (coordsOf d r'.vertices) g.vertexIndices).flatten =
      totalOrient (r.groups.map fun g => rowOrients s (coordsOf d r.vertices) g.vertexIndices).flatten := by
  rw [totalOrient_flatten, totalOrient_flatten, List.map_map, List.map_map]
  congr 1
  apply List.ext_getElem?
  intro i
  rw [List.getElem?_map, List.getElem?_map]
  by_cases hi : i < r.groups.length
  · have e1 := List.getElem?_eq_getElem hi
    have e2 := List.getElem?_eq_getElem (l := r'.groups) (i := i) (by rw [h.1]; exact hi)
    rw [e1, e2, Option.map_some, Option.map_some]
    congr 1
    exact h.group_total hdet e1 e2
  · rw [List.getElem?_eq_none (by rw [h.1]; omega), List.getElem?_eq_none (by omega)]
    rfl

/-- **C112**, every history: after any refinements of a mesh of straight, affine elements, each with the flagged
elements in one group, `find_volume_mesh_element_orientations` succeeds, the sum of the orientations (for
simplices, the volume of the mesh times a constant) is as at the start if the determinants of the children of the
reference element have sum 1, and all elements are oriented positively if they were at the start and these
determinants are positive. -/
theorem C112_history [LinearOrder K] [IsStrictOrderedRing K]
    {resample : List (List K → K) → List (List K) → List (List K) → Option (Mat K)}
    (hr : ResampleSound resample) {meg : SGroup K (List K)} (hl : meg.basis.length = meg.nodes.length)
    {sh : ChildShape} {ref1 ref2 children : List (List Nat)} (h1 : ref1.Nodup) (h2 : ref2.Nodup)
    (hd1 : ∀ c ∈ ref1, c.length = d) (hd : ∀ v ∈ ref2, v.length = d) {geo : Geo (List (List K)) (List K)}
    (hgeo : polyGeo resample meg sh ref1 ref2 children = some geo)
    (hch : ChildrenOK meg sh ref1 ref2 children)
    {vertices : List (List K)} {groups : List (ElGroup (List (List K)))} {c : Option Bool}
    (hwf : ∀ g ∈ groups, g.vertexIndices.length = g.nodes.length)
    (hval : ∀ g ∈ groups, ∀ row ∈ g.vertexIndices, ∀ v ∈ row, v < vertices.length)
    (hmatch : CornersMatch meg ref1 (Refiner.init vertices groups c))
    (hs : AllStraight meg d (Refiner.init vertices groups c))
    {s : GShape} (hsc : s.Corners d) (hsu : unitVerts s = ref1.map cornerInts) (hd0 : d ≠ 0)
    {maps : List (Matrix (Fin d) (Fin d) K × (Fin d → K))} (hmaps : RefChildren ref1 ref2 children maps)
    (haff : AllAffine s d (Refiner.init vertices groups c)) {shape : Nat → GShape}
    (hshape : ∀ g ∈ groups, shape g.kind = s) {r : Refiner (List (List K)) (List K)}
    (h : Reached geo (Refiner.init vertices groups c) r) :
    ∃ os os', orientLoop shape (coordsOf d vertices) false groups = .ok os ∧
      orientLoop shape (coordsOf d r.vertices) false r.groups = .ok os' ∧
      ((maps.map fun m => m.1.det).sum = 1 → totalOrient os' = totalOrient os) ∧
      ((∀ m ∈ maps, 0 < m.1.det) → (∀ o ∈ os, ∃ x, o = some x ∧ 0 < x) → ∀ o ∈ os', ∃ x, o = some x ∧ 0 < x) := by
  have inv : AllAffine s d r ∧ (∀ g ∈ r.groups, shape g.kind = s) ∧
      ((maps.map fun m => m.1.det).sum = 1 →
        totalOrient (r.groups.map fun g => rowOrients s (coordsOf d r.vertices) g.vertexIndices).flatten =
          totalOrient (groups.map fun g => rowOrients s (coordsOf d vertices) g.vertexIndices).flatten) ∧
      ((∀ m ∈ maps, 0 < m.1.det) → (∀ g ∈ groups, ∀ row ∈ g.vertexIndices, ∀ o,
          elemOrient (coordsOf d vertices) (unitVerts s) row = some o → 0 < o) →
        ∀ g ∈ r.groups, ∀ row ∈ g.vertexIndices, ∀ o,
          elemOrient (coordsOf d r.vertices) (unitVerts s) row = some o → 0 < o) := by
    induction h with
    | init => exact ⟨haff, hshape, fun _ => rfl, fun _ h => h⟩
    | step hreach hk hstep ih =>
      obtain ⟨i1, i2, i3, i4⟩ := ih
      obtain ⟨j1, j2, j3, j4⟩ := C88_straight_history_partial hr hl h1 h2 hd1 hd hgeo hch hwf hval hmatch hs hreach
      obtain ⟨k1, k2⟩ := splitsOrients hr hl h1 h2 hd1 hd hgeo hch j1 j2 j3 j4 hstep hk hsc hsu hmaps i1
      refine ⟨k1, k2.kinds i2, fun hsum => by rw [k2.total hsum, i3 hsum], fun hdet hpos => ?_⟩
      refine k2.positive ?_ (i4 hdet hpos)
      intro x hx
      obtain ⟨m, hm, rfl⟩ := List.mem_map.1 hx
      exact hdet m hm
  obtain ⟨i1, i2, i3, i4⟩ := inv
  refine ⟨_, _, haff.orients (shape := shape) hsc hd0 hshape false, i1.orients hsc hd0 i2 false, i3, ?_⟩
  intro hdet hpos o ho
  obtain ⟨l, hl', hol⟩ := List.mem_flatten.1 ho
  obtain ⟨g, hg, rfl⟩ := List.mem_map.1 hl'
  obtain ⟨row, hrow, rfl⟩ := List.mem_map.1 hol
  obtain ⟨A, b, hA⟩ := i1 g hg row hrow
  refine ⟨_, elemOrient_affine hsc hA, ?_⟩
  refine i4 hdet ?_ g hg row hrow _ (elemOrient_affine hsc hA)
  intro g0 hg0 row0 hrow0 o0 ho0
  obtain ⟨x, hx, hx0⟩ := hpos (some o0) (List.mem_flatten.2 ⟨_, List.mem_map.2 ⟨g0, hg0, rfl⟩,
    List.mem_map.2 ⟨row0, hrow0, ho0⟩⟩)
  cases hx
  exact hx0

/-- The edges of a child of the reference simplex at its first vertex, halved.
(Specification or proof vocabulary, no code.) -/
def childEdges (K : Type) [Field K] (d : Nat) (ref2 : List (List Nat)) (child : List Nat) :
    Matrix (Fin d) (Fin d) K :=
  Matrix.of fun i j => (tuplePoint K d (ref2.getD (child.getD (j + 1) 0) []) i -
    tuplePoint K d (ref2.getD (child.getD 0 0) []) i) / 2

theorem mulVec_corner [CharZero K] (L : Matrix (Fin d) (Fin d) K) (j : Fin d) (i : Fin d) :
    L.mulVec (unitPoint K d (cornerInts ((List.replicate d 0).set j 1))) i =
      L.mulVec (fun _ => -1) i + 2 * L i j := by
  have : unitPoint K d (cornerInts ((List.replicate d 0).set j 1)) = (fun _ => -1) + Pi.single j 2 := by
    funext k
    rw [unitPoint_corner (by simp)]
    by_cases hk : k = j
    · subst hk
      simp [List.getD_eq_getElem?_getD]
      norm_num
    · have : (j : Nat) ≠ k := fun h => hk (Fin.ext h.symm)
      simp [List.getD_eq_getElem?_getD, this, hk]
  rw [this, Matrix.mulVec_add, Pi.add_apply, Matrix.mulVec_single]
  simp [mul_comm]

theorem simplex_refChildren [CharZero K] {ref1 ref2 children : List (List Nat)}
    (href : ref1 = List.replicate d 0 :: (List.range d).map fun j => (List.replicate d 0).set j 1)
    (hch : ∀ child ∈ children, child.length = d + 1) :
    RefChildren (d := d) (K := K) ref1 ref2 children (children.map fun child => (childEdges K d ref2 child,
      tuplePoint K d (ref2.getD (child.getD 0 0) []) - (childEdges K d ref2 child).mulVec fun _ => -1)) := by
  refine ⟨by simp, ?_⟩
  intro j child m hj hm
  rw [List.getElem?_map, hj, Option.map_some] at hm
  cases hm
  have hcl := hch child (List.mem_of_getElem? hj)
  intro q x c v hx hc hv
  subst href
  have hcx : child.getD q 0 = x := by rw [List.getD_eq_getElem?_getD, hx]; rfl
  have hrx : ref2.getD x [] = v := by rw [List.getD_eq_getElem?_getD, hv]; rfl
  match q with
  | 0 =>
    rw [List.getElem?_cons_zero] at hc
    cases hc
    have : unitPoint K d (cornerInts (List.replicate d 0)) = fun _ => -1 := by
      funext k
      rw [unitPoint_corner (by simp)]
      simp [List.getD_eq_getElem?_getD]
    simp only
    rw [this, hcx, hrx, add_sub_cancel]
  | q + 1 =>
    rw [List.getElem?_cons_succ, List.getElem?_map, Option.map_eq_some_iff] at hc
    obtain ⟨j', hj', rfl⟩ := hc
    obtain ⟨hjd, hj'⟩ := List.getElem?_eq_some_iff.1 hj'
    rw [List.length_range] at hjd
    rw [List.getElem_range] at hj'
    subst hj'
    funext i
    have := mulVec_corner (childEdges K d ref2 child) ⟨q, hjd⟩ i
    simp only at this ⊢
    rw [Pi.add_apply, this, Pi.sub_apply]
    simp only [childEdges, Matrix.of_apply, hcx, hrx]
    ring

/-- **C112** for simplices, every history: nothing is asked of the elements but that they are straight; the
determinants are those of the edges of the children of the reference simplex. -/
theorem C112_simplices [LinearOrder K] [IsStrictOrderedRing K]
    {resample : List (List K → K) → List (List K) → List (List K) → Option (Mat K)}
    (hr : ResampleSound resample) {meg : SGroup K (List K)} (hl : meg.basis.length = meg.nodes.length)
    {ref1 ref2 children : List (List Nat)}
    (href : ref1 = List.replicate d 0 :: (List.range d).map fun j => (List.replicate d 0).set j 1)
    (h1 : ref1.Nodup) (h2 : ref2.Nodup) (hd : ∀ v ∈ ref2, v.length = d) {geo : Geo (List (List K)) (List K)}
    (hgeo : polyGeo resample meg .simplex ref1 ref2 children = some geo)
    (hch : ChildrenOK meg .simplex ref1 ref2 children)
    {vertices : List (List K)} {groups : List (ElGroup (List (List K)))} {c : Option Bool}
    (hwf : ∀ g ∈ groups, g.vertexIndices.length = g.nodes.length)
    (hval : ∀ g ∈ groups, ∀ row ∈ g.vertexIndices, ∀ v ∈ row, v < vertices.length)
    (hmatch : CornersMatch meg ref1 (Refiner.init vertices groups c))
    (hs : AllStraight meg d (Refiner.init vertices groups c)) (hd0 : d ≠ 0) {shape : Nat → GShape}
    (hshape : ∀ g ∈ groups, shape g.kind = .simplex d) {r : Refiner (List (List K)) (List K)}
    (h : Reached geo (Refiner.init vertices groups c) r) :
    ∃ os os', orientLoop shape (coordsOf d vertices) false groups = .ok os ∧
      orientLoop shape (coordsOf d r.vertices) false r.groups = .ok os' ∧
      ((children.map fun child => (childEdges K d ref2 child).det).sum = 1 → totalOrient os' = totalOrient os) ∧
      ((∀ child ∈ children, 0 < (childEdges K d ref2 child).det) →
        (∀ o ∈ os, ∃ x, o = some x ∧ 0 < x) → ∀ o ∈ os', ∃ x, o = some x ∧ 0 < x) := by
  have hcl : ∀ child ∈ children, child.length = d + 1 := by
    intro child hc
    rw [(hch child hc).1, href]
    simp
  have hunit : unitVerts (.simplex d) = ref1.map cornerInts := by
    rw [href]
    simp only [unitVerts, List.map_cons, List.map_map, cornerInts, List.map_replicate]
    congr 1
    apply List.map_congr_left
    intro j _
    simp [List.map_set, cornerInts]
  have haff : AllAffine (.simplex d) d (Refiner.init vertices groups c) := by
    intro g hg row hrow
    obtain ⟨e, he⟩ := List.mem_iff_getElem?.1 hrow
    have hel : e < g.nodes.length := by
      rw [← hwf g hg]
      exact (List.getElem?_eq_some_iff.1 he).1
    obtain ⟨_, m2, _⟩ := hmatch g hg e row _ he (List.getElem?_eq_getElem hel)
    refine simplex_affine two_ne_zero (by rw [m2, href]; simp) ?_
    intro v hv
    rw [coordsOf, List.length_map]
    exact hval g hg row hrow v hv
  obtain ⟨os, os', o1, o2, o3, o4⟩ := C112_history hr hl h1 h2 (by
      intro c hc
      rw [href] at hc
      simp only [List.mem_cons, List.mem_map] at hc
      rcases hc with rfl | ⟨j, _, rfl⟩
      · simp
      · simp) hd hgeo hch hwf hval hmatch hs (simplex_corners d) hunit hd0
    (simplex_refChildren (K := K) href hcl) haff hshape h
  refine ⟨os, os', o1, o2, fun hsum => o3 ?_, fun hdet => o4 ?_⟩
  · rw [List.map_map]
    exact hsum
  · intro m hm
    obtain ⟨child, hc, rfl⟩ := List.mem_map.1 hm
    exact hdet child hc

end

/-! ## Cases -/

-- the determinants for the four children of a triangle
example : (triTess.children.map fun child => (childEdges ℚ 2 triRef child).det) = [1 / 4, 1 / 4, 1 / 4, 1 / 4] := by
  simp [triTess, triRef, childEdges, tuplePoint, Matrix.det_fin_two]
  norm_num

-- any refinements of the two triangles of a square keep the sum of the orientations, and all of them are positive
example (geo : Geo (List (List ℚ)) (List ℚ)) (hgeo : triGeo = some geo) (r : Refiner (List (List ℚ)) (List ℚ))
    (h : Reached geo (Refiner.init squareVertices [squareGroup] (some true)) r) :
    ∃ os', orientLoop (fun _ => .simplex 2) (coordsOf 2 r.vertices) false r.groups = .ok os' ∧
      totalOrient os' = 8 ∧ ∀ o ∈ os', ∃ x, o = some x ∧ 0 < x := by
  obtain ⟨os, os', o1, o2, o3, o4⟩ := C112_simplices (d := 2) lagrangeResample_sound (meg := triMeg) rfl
    (ref1 := triOne) (ref2 := triRef) (children := triTess.children) rfl (by decide) (by decide) (by decide) hgeo
    triMeg_children (by decide) (by decide) (tri_match (by decide +kernel)) (fun _ _ _ _ => triMeg_straight _)
    (by decide) (shape := fun _ => .simplex 2) (fun _ _ => rfl) h
  have hos : os = [some 4, some 4] := by
    have : orientLoop (fun _ => .simplex 2) (coordsOf 2 squareVertices) false [squareGroup] =
        .ok [some 4, some 4] := by
      simp [orientLoop, groupOrient, squareGroup, squareVertices, coordsOf, GShape.dim, elemOrient, rowPoint,
        unitVerts, findVertex, List.range_succ, orientSign, Matrix.det_fin_two]
      decide +kernel
    rw [this] at o1
    exact (Except.ok.inj o1).symm
  subst hos
  refine ⟨os', o2, ?_, ?_⟩
  · rw [o3 (by
      simp [triTess, triRef, childEdges, tuplePoint, Matrix.det_fin_two]
      norm_num)]
    norm_num [totalOrient]
  · refine o4 ?_ (by simp)
    simp [triTess, triRef, childEdges, tuplePoint, Matrix.det_fin_two]
    norm_num

end Meshmode
