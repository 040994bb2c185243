import Verif.Refine.Volume
import Verif.Connection.Apart

/-!
# Refined elements do not overlap (C130)

`RefinerWithoutAdjacency.refine` (meshmode/mesh/refinement/no_adjacency.py:84-259, model in `Verif.Refine.Model` and
`Verif.Refine.Geometry`) and elements that do not overlap.  No new code is modelled.
-/
namespace Meshmode

variable {K : Type} [Field K] {d : Nat}

/-! ## Specification -/

/-- The point of the reference element with the given weights of its corners.
(Specification or proof vocabulary, no code.) -/
def refPoint (uv : List (List Int)) (w : List K) : Fin d → K := (List.zipWith (fun b x => b • unitPoint K d x) w uv).sum

/-- Weights of `n` corners. (Specification or proof vocabulary, no code.) -/
def IsWeights [LE K] (n : Nat) (w : List K) : Prop := w.length = n ∧ (∀ b ∈ w, 0 ≤ b) ∧ w.sum = 1

/-- The images of the reference element under the maps are in it, their inner points are inner points of it, and no
inner point of one of them is in another. (Specification or proof vocabulary, no code.) -/
structure RefApart [LinearOrder K] (uv : List (List Int)) (maps : List (Matrix (Fin d) (Fin d) K × (Fin d → K))) :
    Prop where
  inside : ∀ m ∈ maps, ∀ w, IsWeights uv.length w → ∃ W : List K, IsWeights uv.length W ∧
    refPoint uv W = m.1.mulVec (refPoint uv w) + m.2 ∧ ((∀ b ∈ w, 0 < b) → ∀ b ∈ W, 0 < b)
  apart : ∀ (j j' : Nat) m m' w w', maps[j]? = some m → maps[j']? = some m' → IsWeights uv.length w →
    IsWeights uv.length w' → (∀ b ∈ w, 0 < b) →
    m.1.mulVec (refPoint uv w) + m.2 = m'.1.mulVec (refPoint uv w') + m'.2 → j = j'

/-! ## Lemmas -/

theorem refPoint_affine (A : Matrix (Fin d) (Fin d) K) (b : Fin d → K) (i : Fin d) :
    ∀ (w : List K) (uv : List (List Int)), w.length = uv.length →
      (List.zipWith (fun c x => c * (A.mulVec (unitPoint K d x) + b) i) w uv).sum =
        A.mulVec (refPoint uv w) i + w.sum * b i := by
  intro w
  induction w with
  | nil => intro uv _; simp [refPoint]
  | cons c w ih =>
    intro uv hl
    match uv, hl with
    | x :: uv, hl =>
      have h := ih uv (by simpa using hl)
      simp only [refPoint] at h ⊢
      simp only [List.zipWith_cons_cons, List.sum_cons]
      rw [h, Matrix.mulVec_add, Matrix.mulVec_smul]
      simp only [Pi.add_apply, Pi.smul_apply, smul_eq_mul]
      ring

theorem AffineElement.point {vs : List (Fin d → K)} {uv : List (List Int)} {row : List Nat}
    {A : Matrix (Fin d) (Fin d) K} {b : Fin d → K} (h : AffineElement vs uv row A b) {w : List K}
    (hl : w.length = uv.length) (i : Fin d) (hs : w.sum = 1) :
    (List.zipWith (fun c v => c * vs.getD v 0 i) w row).sum = (A.mulVec (refPoint uv w) + b) i := by
  have e : List.zipWith (fun c v => c * vs.getD v 0 i) w row =
      List.zipWith (fun c x => c * (A.mulVec (unitPoint K d x) + b) i) w uv := by
    refine List.ext_getElem (by simp [h.1]) fun k h1 h2 => ?_
    simp only [List.length_zipWith, lt_inf_iff] at h1 h2
    simp only [List.getElem_zipWith]
    obtain ⟨v, p, q1, q2, q3⟩ := h.2 k _ (List.getElem?_eq_getElem h2.2)
    rw [List.getElem?_eq_getElem h1.2] at q1
    rw [Option.some.inj q1, List.getD_eq_getElem?_getD, q2, Option.getD_some, q3]
  rw [e, refPoint_affine A b i w uv hl, hs, one_mul]
  rfl

variable [LinearOrder K]

theorem AffineElement.inElement_iff {vs : List (Fin d → K)} {uv : List (List Int)} {row : List Nat}
    {A : Matrix (Fin d) (Fin d) K} {b : Fin d → K} (h : AffineElement vs uv row A b) {w : List K} {pt : Fin d → K} :
    InElement vs row w pt ↔ IsWeights uv.length w ∧ pt = A.mulVec (refPoint uv w) + b := by
  constructor
  · rintro ⟨h1, h2, h3, h4⟩
    refine ⟨⟨h1.trans h.1, h2, h3⟩, funext fun i => ?_⟩
    rw [h4 i, h.point (h1.trans h.1) i h3]
  · rintro ⟨⟨h1, h2, h3⟩, rfl⟩
    exact ⟨h1.trans h.1.symm, h2, h3, fun i => (h.point h1 i h3).symm⟩

/-! ## Properties -/

/-- C130: if no elements of a mesh of straight elements overlap, nor do those of the refined mesh, provided that the
children of the reference element do not overlap. -/
theorem C130_refine [IsStrictOrderedRing K]
    {resample : List (List K → K) → List (List K) → List (List K) → Option (Mat K)}
    (hr : ResampleSound resample) {meg : SGroup K (List K)} (hl : meg.basis.length = meg.nodes.length)
    {sh : ChildShape} {ref1 ref2 children : List (List Nat)} (h1 : ref1.Nodup) (h2 : ref2.Nodup)
    (hd1 : ∀ c ∈ ref1, c.length = d) (hd : ∀ v ∈ ref2, v.length = d) {geo : Geo (List (List K)) (List K)}
    (hgeo : polyGeo resample meg sh ref1 ref2 children = some geo)
    (hch : ChildrenOK meg sh ref1 ref2 children)
    {r r' : Refiner (List (List K)) (List K)} (hok : r.OK) (hmatch : CornersMatch meg ref1 r)
    (hs : AllStraight meg d r) (htab : TableHalfway r)
    {flags : List Bool} (h : r.refine geo flags = some r') {k : Nat} (hk : r.FlagsIn flags k)
    {s : GShape} (hsc : s.Corners d) (hsu : unitVerts s = ref1.map cornerInts)
    {maps : List (Matrix (Fin d) (Fin d) K × (Fin d → K))} (hmaps : RefChildren ref1 ref2 children maps)
    (hapart : RefApart (unitVerts s) maps) (hdets : ∀ m ∈ maps, m.1.det ≠ 0)
    (haff : ∀ g ∈ r.groups, ∀ row ∈ g.vertexIndices, ∃ A b,
      AffineElement (coordsOf d r.vertices) (unitVerts s) row A b ∧ A.det ≠ 0)
    (hno : NoOverlap r.groups (coordsOf d r.vertices)) : NoOverlap r'.groups (coordsOf d r'.vertices) ∧
      ∀ g ∈ r'.groups, ∀ row ∈ g.vertexIndices, ∃ A b,
        AffineElement (coordsOf d r'.vertices) (unitVerts s) row A b ∧ A.det ≠ 0 := by
  obtain ⟨g1, g2⟩ := polyGeo_ok hgeo h1 h2
  obtain ⟨t, mapped, Mm, Mc, ht, hm, hMm, hMc, hgeq⟩ := polyGeo_spec hgeo
  obtain ⟨_, hpre, _, _⟩ := C19_new_vertices_partial g1 g2 hok h hk
  have hpre' : coordsOf d r.vertices <+: coordsOf d r'.vertices := by
    obtain ⟨l, hl'⟩ := hpre
    exact ⟨l.map fun p i => p.getD i 0, by rw [← hl']; simp [coordsOf]⟩
  obtain ⟨c1, c2, c3, c4⟩ := C20_refine_elements g1 hok.1 h
  have hflag : ∀ (i : Nat) (g : ElGroup (List (List K))) (e : Nat), r.groups[i]? = some g → e < g.nelements →
      ∃ b, r.flagOf flags i e = some b := by
    intro i g e hg hel
    unfold Refiner.refine at h
    split at h
    · simp at h
    rename_i hlen
    obtain ⟨f, _, hfl, hfe⟩ := refineFlags_getElem? hg (not_not.1 hlen)
    have hef : e < f.length := by omega
    exact ⟨f[e]'hef, by unfold Refiner.flagOf; rw [← hfe e hel, List.getElem?_eq_getElem hef]⟩
  -- where an element comes from
  have key : ∀ (i n : Nat) g' row', r'.groups[i]? = some g' → g'.vertexIndices[n]? = some row' →
      ∃ (g : ElGroup (List (List K))) (e : Nat) (row c : List Nat) (t' : Tess) (mapping : List (List Nat)) (fl : Bool),
        r.groups[i]? = some g ∧ g.vertexIndices[e]? = some row ∧ r'.records[i]? = some (t', mapping) ∧
        mapping[e]? = some c ∧ r.flagOf flags i e = some fl ∧
        (fl = false → c = [n] ∧ row' = row) ∧
        (fl = true → ∃ (j : Nat) (m : Matrix (Fin d) (Fin d) K × (Fin d → K)), c[j]? = some n ∧ maps[j]? = some m ∧
          ∀ A b, AffineElement (coordsOf d r.vertices) (unitVerts s) row A b →
            AffineElement (coordsOf d r'.vertices) (unitVerts s) row' (A * m.1) (A.mulVec m.2 + b)) := by
    intro i n g' row' hi hn
    obtain ⟨g, hg⟩ : ∃ g, r.groups[i]? = some g := ⟨_, List.getElem?_eq_getElem (by
      rw [← c1]; exact (List.getElem?_eq_some_iff.1 hi).1)⟩
    have hgm := List.mem_of_getElem? hg
    obtain ⟨g'', mapping, d1, d2, d3, d4⟩ := c4 i g hg
    rw [hi] at d1
    cases d1
    have hnl : n < g'.nelements := by
      rw [ElGroup.nelements, ← c3 g' (List.mem_of_getElem? hi)]
      exact (List.getElem?_eq_some_iff.1 hn).1
    obtain ⟨e, ⟨c, hc, hnc⟩, _⟩ := d3.parent hnl
    have hel : e < g.nelements := by
      rw [← d3.1]
      exact (List.getElem?_eq_some_iff.1 hc).1
    have hrow := List.getElem?_eq_getElem (l := g.vertexIndices) (i := e) (by rw [hok.1 g hgm]; exact hel)
    obtain ⟨fl, hfl⟩ := hflag i g e hg hel
    refine ⟨g, e, _, c, _, mapping, fl, hg, hrow, d2, hc, hfl, ?_, ?_⟩
    · rintro rfl
      obtain ⟨n', rfl, e1, _⟩ := (d4 e c hc).1 hfl
      rw [List.mem_singleton] at hnc
      subst hnc
      rw [hn, hrow] at e1
      exact ⟨rfl, Option.some.inj e1⟩
    · rintro rfl
      have hik : i = k := by
        by_contra hik
        have := hk i g e hik hg hel
        rw [hfl] at this
        simp at this
      subst hik
      obtain ⟨g'', t'', mapping'', f1, f2, f3⟩ := C112_child_map hr hl h1 h2 hd1 hd hgeo hch hok hmatch hs htab h hk
        hsc hsu hg
      rw [hi] at f1
      cases f1
      rw [d2] at f2
      cases f2
      have hcl : (geo.tess g).children.length = maps.length := by
        rw [hmaps.1, hgeq]
        simp only
        rw [(tessInfo_spec ht).1]
      obtain ⟨j, hj⟩ := List.mem_iff_getElem?.1 hnc
      have hjm := List.getElem?_eq_getElem (l := maps) (i := j) (by
        rw [← hcl, ← ((d4 e c hc).2 hfl).1]; exact (List.getElem?_eq_some_iff.1 hj).1)
      have hchild := List.getElem?_eq_getElem (l := children) (i := j) (by
        rw [← hmaps.1]; exact (List.getElem?_eq_some_iff.1 hjm).1)
      refine ⟨j, _, hj, hjm, fun A b hA => ?_⟩
      obtain ⟨row2, h3, h4, _⟩ := f3 e c _ A b hfl hc hrow hA j n _ _ _ hj hchild (hmaps.2 j _ _ hchild hjm)
      rw [hn] at h3
      cases h3
      exact h4
  -- a point of an element is one of its parent
  have up : ∀ (row row' : List Nat) (fl : Bool) A b, AffineElement (coordsOf d r.vertices) (unitVerts s) row A b →
      ∀ w pt m, InElement (coordsOf d r'.vertices) row' w pt → (fl = false → row' = row) → (fl = true → m ∈ maps ∧
        AffineElement (coordsOf d r'.vertices) (unitVerts s) row' (A * m.1) (A.mulVec m.2 + b)) →
      (fl = true → IsWeights (unitVerts s).length w ∧
        pt = A.mulVec (m.1.mulVec (refPoint (unitVerts s) w) + m.2) + b) ∧
      ∃ W, InElement (coordsOf d r.vertices) row W pt ∧ ((∀ b ∈ w, 0 < b) → ∀ b ∈ W, 0 < b) := by
    intro row row' fl A b hA w pt m hin hf ht'
    cases fl with
    | false =>
      refine ⟨fun q => (by cases q), w, ?_, fun q => q⟩
      rw [hf rfl] at hin
      exact hA.inElement_iff.2 ((hA.prefix hpre').inElement_iff.1 hin)
    | true =>
      obtain ⟨hmm, hB⟩ := ht' rfl
      obtain ⟨hw, hpt⟩ := hB.inElement_iff.1 hin
      have hpt' : pt = A.mulVec (m.1.mulVec (refPoint (unitVerts s) w) + m.2) + b := by
        rw [hpt, Matrix.mulVec_add, ← Matrix.mulVec_mulVec, add_assoc]
      obtain ⟨W, hW, hWe, hWp⟩ := hapart.inside m hmm w hw
      exact ⟨fun _ => ⟨hw, hpt'⟩, W, hA.inElement_iff.2 ⟨hW, by rw [hWe, hpt']⟩, hWp⟩
  refine ⟨?_, fun g' hg' row' hrow' => ?_⟩
  swap
  · obtain ⟨i, hi⟩ := List.mem_iff_getElem?.1 hg'
    obtain ⟨n, hn⟩ := List.mem_iff_getElem?.1 hrow'
    obtain ⟨g, e, row, c, t1, mp, fl, k1, k2, _, _, _, k6, k7⟩ := key i n g' row' hi hn
    obtain ⟨A, b, hA, hdet⟩ := haff g (List.mem_of_getElem? k1) row (List.mem_of_getElem? k2)
    cases fl with
    | false =>
      rw [(k6 rfl).2]
      exact ⟨A, b, hA.prefix hpre', hdet⟩
    | true =>
      obtain ⟨j, m, _, q2, q3⟩ := k7 rfl
      refine ⟨_, _, q3 A b hA, ?_⟩
      rw [Matrix.det_mul]
      exact mul_ne_zero hdet (hdets m (List.mem_of_getElem? q2))
  intro i n i' n' g' gg' row' rrow' w w' pt a1 a2 b1 b2 x1 hp x2
  obtain ⟨g, e, row, c, t1, mp, fl, k1, k2, k3, k4, k5, k6, k7⟩ := key i n g' row' a1 a2
  obtain ⟨gg, ee, rrow, cc, tt1, mmp, ffl, l1, l2, l3, l4, l5, l6, l7⟩ := key i' n' gg' rrow' b1 b2
  obtain ⟨A, b, hA, hdet⟩ := haff g (List.mem_of_getElem? k1) row (List.mem_of_getElem? k2)
  obtain ⟨B, b', hB, _⟩ := haff gg (List.mem_of_getElem? l1) rrow (List.mem_of_getElem? l2)
  -- the maps, or anything
  obtain ⟨j, m, q1⟩ : ∃ (j : Nat) (m : Matrix (Fin d) (Fin d) K × (Fin d → K)), fl = true → c[j]? = some n ∧ maps[j]? = some m ∧
      ∀ A b, AffineElement (coordsOf d r.vertices) (unitVerts s) row A b →
        AffineElement (coordsOf d r'.vertices) (unitVerts s) row' (A * m.1) (A.mulVec m.2 + b) := by
    cases fl with
    | false => exact ⟨0, (0, 0), fun q => by cases q⟩
    | true =>
      obtain ⟨j, m, q⟩ := k7 rfl
      exact ⟨j, m, fun _ => q⟩
  obtain ⟨jj, mm, q2⟩ : ∃ (j : Nat) (m : Matrix (Fin d) (Fin d) K × (Fin d → K)), ffl = true → cc[j]? = some n' ∧ maps[j]? = some m ∧
      ∀ A b, AffineElement (coordsOf d r.vertices) (unitVerts s) rrow A b →
        AffineElement (coordsOf d r'.vertices) (unitVerts s) rrow' (A * m.1) (A.mulVec m.2 + b) := by
    cases ffl with
    | false => exact ⟨0, (0, 0), fun q => by cases q⟩
    | true =>
      obtain ⟨j, m, q⟩ := l7 rfl
      exact ⟨j, m, fun _ => q⟩
  obtain ⟨y1, W, y2, y3⟩ := up row row' fl A b hA w pt m x1 (fun q => (k6 q).2)
    fun q => ⟨List.mem_of_getElem? (q1 q).2.1, (q1 q).2.2 A b hA⟩
  obtain ⟨_, W', z2, _⟩ := up rrow rrow' ffl B b' hB w' pt mm x2 (fun q => (l6 q).2)
    fun q => ⟨List.mem_of_getElem? (q2 q).2.1, (q2 q).2.2 B b' hB⟩
  obtain ⟨rfl, rfl⟩ := hno _ _ _ _ _ _ _ _ _ _ _ k1 k2 l1 l2 y2 (y3 hp) z2
  rw [k1] at l1; obtain rfl := Option.some.inj l1
  rw [k2] at l2; obtain rfl := Option.some.inj l2
  rw [k3] at l3; cases l3
  rw [k4] at l4; obtain rfl := Option.some.inj l4
  rw [k5] at l5; obtain rfl := Option.some.inj l5
  refine ⟨rfl, ?_⟩
  cases fl with
  | false =>
    have e1 := (k6 rfl).1
    have e2 := (l6 rfl).1
    rw [e1] at e2
    simpa using e2
  | true =>
    obtain ⟨z1, _⟩ := up row rrow' true A b hA w' pt mm x2 (fun q => by cases q)
      fun q => ⟨List.mem_of_getElem? (q2 q).2.1, (q2 q).2.2 A b hA⟩
    obtain ⟨hw, hpt⟩ := y1 rfl
    obtain ⟨hw', hpt'⟩ := z1 rfl
    have hinj : Function.Injective A.mulVec := Matrix.mulVec_injective_of_isUnit
      ((Matrix.isUnit_iff_isUnit_det A).2 (isUnit_iff_ne_zero.2 hdet))
    have heq := hinj (add_right_cancel (hpt.symm.trans hpt'))
    obtain rfl := hapart.apart j jj m mm w w' (q1 rfl).2.1 (q2 rfl).2.1 hw hw' hp heq
    have := (q1 rfl).1.symm.trans (q2 rfl).1
    exact Option.some.inj this

/-- C130, every history: refinements of a mesh of straight elements, each with the flagged elements in one group, do not
make elements overlap. -/
theorem C130_refine_history [IsStrictOrderedRing K]
    {resample : List (List K → K) → List (List K) → List (List K) → Option (Mat K)}
    (hr : ResampleSound resample) {meg : SGroup K (List K)} (hl : meg.basis.length = meg.nodes.length)
    {sh : ChildShape} {ref1 ref2 children : List (List Nat)} (h1 : ref1.Nodup) (h2 : ref2.Nodup)
    (hd1 : ∀ c ∈ ref1, c.length = d) (hd : ∀ v ∈ ref2, v.length = d) {geo : Geo (List (List K)) (List K)}
    (hgeo : polyGeo resample meg sh ref1 ref2 children = some geo)
    (hch : ChildrenOK meg sh ref1 ref2 children)
    {vertices : List (List K)} {groups : List (ElGroup (List (List K)))} {c : Option Bool}
    (hwf : ∀ g ∈ groups, g.vertexIndices.length = g.nodes.length)
    (hval : ∀ g ∈ groups, ∀ row ∈ g.vertexIndices, ∀ v ∈ row, v < vertices.length)
    (hmatch : CornersMatch meg ref1 (Refiner.init vertices groups c))
    (hs : AllStraight meg d (Refiner.init vertices groups c))
    {s : GShape} (hsc : s.Corners d) (hsu : unitVerts s = ref1.map cornerInts)
    {maps : List (Matrix (Fin d) (Fin d) K × (Fin d → K))} (hmaps : RefChildren ref1 ref2 children maps)
    (hapart : RefApart (unitVerts s) maps) (hdets : ∀ m ∈ maps, m.1.det ≠ 0)
    (haff : ∀ g ∈ groups, ∀ row ∈ g.vertexIndices, ∃ A b,
      AffineElement (coordsOf d vertices) (unitVerts s) row A b ∧ A.det ≠ 0)
    (hno : NoOverlap groups (coordsOf d vertices)) {r : Refiner (List (List K)) (List K)}
    (h : Reached geo (Refiner.init vertices groups c) r) : NoOverlap r.groups (coordsOf d r.vertices) := by
  have inv : NoOverlap r.groups (coordsOf d r.vertices) ∧ ∀ g ∈ r.groups, ∀ row ∈ g.vertexIndices, ∃ A b,
      AffineElement (coordsOf d r.vertices) (unitVerts s) row A b ∧ A.det ≠ 0 := by
    induction h with
    | init => exact ⟨hno, haff⟩
    | step hreach hk hstep ih =>
      obtain ⟨j1, j2, j3, j4⟩ := C88_straight_history_partial hr hl h1 h2 hd1 hd hgeo hch hwf hval hmatch hs hreach
      exact C130_refine hr hl h1 h2 hd1 hd hgeo hch j1 j2 j3 j4 hstep hk hsc hsu hmaps hapart hdets ih.2 ih.1
  exact inv.1

/-! ## Triangles -/

/-- The maps of the four children of a triangle. (Specification or proof vocabulary, no code.) -/
def triMaps (K : Type) [Field K] : List (Matrix (Fin 2) (Fin 2) K × (Fin 2 → K)) :=
  [(!![1/2, 0; 0, 1/2], ![-1/2, -1/2]), (!![1/2, 0; 0, 1/2], ![1/2, -1/2]), (!![1/2, 0; 0, 1/2], ![-1/2, 1/2]),
    (!![0, -1/2; 1/2, 1/2], ![-1/2, 0])]

omit [LinearOrder K] in
theorem refPoint_triangle (a b c : K) : (refPoint (unitVerts (.simplex 2)) [a, b, c] : Fin 2 → K) =
    ![-a + b - c, -a - b + c] := by
  funext i
  fin_cases i <;> simp [refPoint, unitVerts, unitPoint, List.range_succ] <;> ring

omit [LinearOrder K] in
theorem triMaps_children [CharZero K] : RefChildren (d := 2) (K := K) triOne triRef triTess.children (triMaps K) := by
  refine ⟨rfl, fun j child m hj hm q x c v hx hc hv => ?_⟩
  match j, hj, hm with
  | 0, hj, hm | 1, hj, hm | 2, hj, hm | 3, hj, hm =>
    obtain rfl := Option.some.inj hj
    obtain rfl := Option.some.inj hm
    match q, hx, hc with
    | 0, hx, hc | 1, hx, hc | 2, hx, hc =>
      obtain rfl := Option.some.inj hx
      obtain rfl := Option.some.inj hc
      obtain rfl := Option.some.inj hv
      funext i
      fin_cases i <;> simp [tuplePoint, unitPoint, cornerInts, dotProduct, Fin.sum_univ_two] <;> norm_num

/-- C130: the children of the reference triangle are in it and do not overlap, as `C130_refine` asks. -/
theorem C130_triangle_children [IsStrictOrderedRing K] :
    RefApart (d := 2) (unitVerts (.simplex 2)) (triMaps K) := by
  have hw : ∀ w : List K, IsWeights (unitVerts (.simplex 2)).length w → ∃ a b c, w = [a, b, c] ∧ 0 ≤ a ∧ 0 ≤ b ∧ 0 ≤ c ∧
      a + b + c = 1 := by
    rintro w ⟨h1, h2, h3⟩
    match w, h1 with
    | [a, b, c], _ =>
      refine ⟨a, b, c, rfl, h2 a (by simp), h2 b (by simp), h2 c (by simp), ?_⟩
      rw [← h3]
      simp [add_assoc]
  constructor
  · intro m hm w hwt
    obtain ⟨a, b, c, rfl, ha, hb, hc, hs⟩ := hw w hwt
    have mk : ∀ x y z : K, 0 ≤ x → 0 ≤ y → 0 ≤ z → x + y + z = 1 → IsWeights (unitVerts (.simplex 2)).length [x, y, z] := by
      intro x y z hx hy hz h
      refine ⟨rfl, ?_, by simpa [add_assoc] using h⟩
      simp [hx, hy, hz]
    simp only [triMaps, List.mem_cons, List.not_mem_nil, or_false] at hm
    rcases hm with rfl | rfl | rfl | rfl
    · refine ⟨[a + b / 2 + c / 2, b / 2, c / 2], mk _ _ _ (by positivity) (by positivity) (by positivity) (by linarith), ?_, ?_⟩
      · rw [refPoint_triangle, refPoint_triangle]
        funext i
        fin_cases i <;> simp <;> linarith
      · simp only [List.forall_mem_cons, List.not_mem_nil, false_implies, implies_true, and_true]
        rintro ⟨p1, p2, p3⟩
        exact ⟨by positivity, by positivity, by positivity⟩
    · refine ⟨[a / 2, a / 2 + b + c / 2, c / 2], mk _ _ _ (by positivity) (by positivity) (by positivity) (by linarith), ?_, ?_⟩
      · rw [refPoint_triangle, refPoint_triangle]
        funext i
        fin_cases i <;> simp <;> linarith
      · simp only [List.forall_mem_cons, List.not_mem_nil, false_implies, implies_true, and_true]
        rintro ⟨p1, p2, p3⟩
        exact ⟨by positivity, by positivity, by positivity⟩
    · refine ⟨[a / 2, b / 2, a / 2 + b / 2 + c], mk _ _ _ (by positivity) (by positivity) (by positivity) (by linarith), ?_, ?_⟩
      · rw [refPoint_triangle, refPoint_triangle]
        funext i
        fin_cases i <;> simp <;> linarith
      · simp only [List.forall_mem_cons, List.not_mem_nil, false_implies, implies_true, and_true]
        rintro ⟨p1, p2, p3⟩
        exact ⟨by positivity, by positivity, by positivity⟩
    · refine ⟨[a / 2 + c / 2, a / 2 + b / 2, b / 2 + c / 2], mk _ _ _ (by positivity) (by positivity) (by positivity)
        (by linarith), ?_, ?_⟩
      · rw [refPoint_triangle, refPoint_triangle]
        funext i
        fin_cases i <;> simp <;> linarith
      · simp only [List.forall_mem_cons, List.not_mem_nil, false_implies, implies_true, and_true]
        rintro ⟨p1, p2, p3⟩
        exact ⟨by positivity, by positivity, by positivity⟩
  · intro j j' m m' w w' hm hm' hwt hwt' hp heq
    obtain ⟨a, b, c, rfl, ha, hb, hc, hs⟩ := hw w hwt
    obtain ⟨a', b', c', rfl, ha', hb', hc', hs'⟩ := hw w' hwt'
    simp only [List.forall_mem_cons, List.not_mem_nil, false_implies, implies_true, and_true] at hp
    obtain ⟨p1, p2, p3⟩ := hp
    rw [refPoint_triangle, refPoint_triangle] at heq
    have e0 := congrFun heq 0
    have e1 := congrFun heq 1
    clear heq
    match j, j', hm, hm' with
    | 0, 0, _, _ | 1, 1, _, _ | 2, 2, _, _ | 3, 3, _, _ => rfl
    | 0, 1, hm, hm' | 0, 2, hm, hm' | 0, 3, hm, hm' | 1, 0, hm, hm' | 1, 2, hm, hm' | 1, 3, hm, hm'
    | 2, 0, hm, hm' | 2, 1, hm, hm' | 2, 3, hm, hm' | 3, 0, hm, hm' | 3, 1, hm, hm' | 3, 2, hm, hm' =>
      obtain rfl := Option.some.inj hm
      obtain rfl := Option.some.inj hm'
      exfalso
      simp at e0 e1
      linarith
    | j + 4, _, hm, _ => simp [triMaps] at hm
    | 0, j' + 4, _, hm' | 1, j' + 4, _, hm' | 2, j' + 4, _, hm' | 3, j' + 4, _, hm' => simp [triMaps] at hm'

/-! ## Example -/

theorem triangle_affine {v0 v1 v2 : Nat} {vs : List (Fin 2 → ℚ)} {o x y : Fin 2 → ℚ} (h0 : vs[v0]? = some o)
    (h1 : vs[v1]? = some x) (h2 : vs[v2]? = some y) :
    AffineElement vs (unitVerts (.simplex 2)) [v0, v1, v2]
      !![(x 0 - o 0) / 2, (y 0 - o 0) / 2; (x 1 - o 1) / 2, (y 1 - o 1) / 2] ![(x 0 + y 0) / 2, (x 1 + y 1) / 2] := by
  refine ⟨rfl, fun k z hz => ?_⟩
  match k, hz with
  | 0, hz =>
    obtain rfl := Option.some.inj hz
    refine ⟨v0, o, rfl, h0, funext fun i => ?_⟩
    fin_cases i <;> simp [unitPoint, dotProduct, Fin.sum_univ_two] <;> ring
  | 1, hz =>
    obtain rfl := Option.some.inj hz
    refine ⟨v1, x, rfl, h1, funext fun i => ?_⟩
    fin_cases i <;> simp [unitPoint, dotProduct, Fin.sum_univ_two] <;> ring
  | 2, hz =>
    obtain rfl := Option.some.inj hz
    refine ⟨v2, y, rfl, h2, funext fun i => ?_⟩
    fin_cases i <;> simp [unitPoint, dotProduct, Fin.sum_univ_two] <;> ring

-- any refinements of the two triangles of a square do not make elements overlap
example (geo : Geo (List (List ℚ)) (List ℚ)) (hgeo : triGeo = some geo) (r : Refiner (List (List ℚ)) (List ℚ))
    (h : Reached geo (Refiner.init squareVertices [squareGroup] (some true)) r) :
    NoOverlap r.groups (coordsOf 2 r.vertices) := by
  have a1 : AffineElement (coordsOf 2 squareVertices) (unitVerts (.simplex 2)) [0, 1, 2] _ _ :=
    triangle_affine rfl rfl rfl
  have a2 : AffineElement (coordsOf 2 squareVertices) (unitVerts (.simplex 2)) [3, 2, 1] _ _ :=
    triangle_affine rfl rfl rfl
  have hw : ∀ w : List ℚ, IsWeights (unitVerts (.simplex 2)).length w → ∃ a b c, w = [a, b, c] ∧ 0 ≤ a ∧ 0 ≤ b ∧ 0 ≤ c ∧
      a + b + c = 1 := by
    rintro w ⟨h1, h2, h3⟩
    match w, h1 with
    | [a, b, c], _ =>
      refine ⟨a, b, c, rfl, h2 a (by simp), h2 b (by simp), h2 c (by simp), ?_⟩
      rw [← h3]
      simp [add_assoc]
  refine C130_refine_history (d := 2) lagrangeResample_sound (meg := triMeg) rfl
    (ref1 := triOne) (ref2 := triRef) (children := triTess.children) (by decide) (by decide) (by decide) (by decide) hgeo
    triMeg_children (by decide) (by decide) (tri_match (by decide +kernel)) (fun _ _ _ _ => triMeg_straight _)
    (simplex_corners 2) (by decide) triMaps_children C130_triangle_children ?_ ?_ ?_ h
  · intro m hm
    simp only [triMaps, List.mem_cons, List.not_mem_nil, or_false] at hm
    rcases hm with rfl | rfl | rfl | rfl <;> norm_num [Matrix.det_fin_two]
  · intro g hg row hrow
    rw [List.mem_singleton] at hg
    subst hg
    simp only [squareGroup, List.mem_cons, List.not_mem_nil, or_false] at hrow
    rcases hrow with rfl | rfl
    · exact ⟨_, _, a1, by norm_num [Matrix.det_fin_two]⟩
    · exact ⟨_, _, a2, by norm_num [Matrix.det_fin_two]⟩
  · intro g e g' e' grp grp' row row' w w' pt q1 q2 q3 q4 x1 hp x2
    match g, g', q1, q3 with
    | 0, 0, q1, q3 =>
      obtain rfl := Option.some.inj q1
      obtain rfl := Option.some.inj q3
      refine ⟨rfl, ?_⟩
      match e, e', q2, q4 with
      | 0, 0, _, _ | 1, 1, _, _ => rfl
      | 0, 1, q2, q4 =>
        obtain rfl := Option.some.inj q2
        obtain rfl := Option.some.inj q4
        obtain ⟨y1, y2⟩ := a1.inElement_iff.1 x1
        obtain ⟨z1, z2⟩ := a2.inElement_iff.1 x2
        obtain ⟨a, b, c, rfl, ha, hb, hc, hs⟩ := hw w y1
        obtain ⟨a', b', c', rfl, ha', hb', hc', hs'⟩ := hw w' z1
        rw [y2, refPoint_triangle, refPoint_triangle] at z2
        have e0 := congrFun z2 0
        have e1 := congrFun z2 1
        have := hp a (by simp)
        simp at e0 e1
        linarith
      | 1, 0, q2, q4 =>
        obtain rfl := Option.some.inj q2
        obtain rfl := Option.some.inj q4
        obtain ⟨y1, y2⟩ := a2.inElement_iff.1 x1
        obtain ⟨z1, z2⟩ := a1.inElement_iff.1 x2
        obtain ⟨a, b, c, rfl, ha, hb, hc, hs⟩ := hw w y1
        obtain ⟨a', b', c', rfl, ha', hb', hc', hs'⟩ := hw w' z1
        rw [y2, refPoint_triangle, refPoint_triangle] at z2
        have e0 := congrFun z2 0
        have e1 := congrFun z2 1
        have := hp a (by simp)
        simp at e0 e1
        linarith
      | e + 2, _, q2, _ => simp [squareGroup] at q2
      | 0, e' + 2, _, q4 | 1, e' + 2, _, q4 => simp [squareGroup] at q4
    | g + 1, _, q1, _ => simp at q1
    | 0, g' + 1, _, q3 => simp at q3

end Meshmode
