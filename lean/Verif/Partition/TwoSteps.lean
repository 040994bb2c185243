import Verif.Partition.Props

/-!
# Partitioning a part again (C117)

`partition_mesh` (meshmode/mesh/processing.py:549-570) applied to one of the parts it made, compared with making the same
pieces at once.  All functions are modelled in Partition/Model.lean; this module adds no model.
-/
namespace Meshmode

variable {N P A : Type}

/-! ## Specification -/

/-- `sel12` lists, by their numbers in the original mesh, the elements `sel2` of the part made of the elements `sel`.
(Specification or proof vocabulary, no code.) -/
def ElementsOf (sel sel2 sel12 : List Nat) : Prop :=
  sel12.length = sel2.length ∧ ∀ k n : Nat, sel2[k]? = some n → ∃ e, sel[n]? = some e ∧ sel12[k]? = some e

/-- A mesh, one of its parts, and one of the parts of that; and the part of the mesh with the same elements, made at
once. (Specification or proof vocabulary, no code.) -/
structure TwoSteps (m : MMesh N P A) (parts : Parts) (p : Nat) (pm : MMesh N P A) (sel : List Nat)
    (parts2 : Parts) (q : Nat) (qm : MMesh N P A) (sel2 : List Nat)
    (parts3 : Parts) (r : Nat) (rm : MMesh N P A) (sel12 : List Nat) : Prop where
  ids : (parts.map Prod.fst).Nodup
  sorted : ∀ p ∈ parts, p.2.Pairwise (· < ·)
  first : getMeshPart m parts p = .ok pm
  mem : (p, sel) ∈ parts
  ids2 : (parts2.map Prod.fst).Nodup
  sorted2 : ∀ p ∈ parts2, p.2.Pairwise (· < ·)
  second : getMeshPart pm parts2 q = .ok qm
  mem2 : (q, sel2) ∈ parts2
  ids3 : (parts3.map Prod.fst).Nodup
  sorted3 : ∀ p ∈ parts3, p.2.Pairwise (· < ·)
  once : getMeshPart m parts3 r = .ok rm
  mem3 : (r, sel12) ∈ parts3
  same : ElementsOf sel sel2 sel12

/-! ## Lists -/

theorem eq_of_sorted {l l' : List Nat} (h : l.Pairwise (· < ·)) (h' : l'.Pairwise (· < ·)) (hm : ∀ x, x ∈ l ↔ x ∈ l') :
    l = l' := by
  have hp : l.Perm l' := (List.perm_ext_iff_of_nodup (nodup_of_pairwise_lt h) (nodup_of_pairwise_lt h')).2 hm
  exact hp.eq_of_pairwise (le := (· < ·)) (fun a b _ _ h1 h2 => by omega) h h'

theorem npSearchsorted_lt {l : List Nat} (h : l.Pairwise (· < ·)) {a b : Nat} (ha : a ∈ l) (hb : b ∈ l) (hab : a < b) :
    npSearchsorted l a < npSearchsorted l b := by
  obtain ⟨i, hi, rfl⟩ := List.mem_iff_getElem.1 ha
  obtain ⟨j, hj, rfl⟩ := List.mem_iff_getElem.1 hb
  rw [npSearchsorted_getElem h i hi, npSearchsorted_getElem h j hj]
  by_contra hc
  rcases Nat.lt_or_ge j i with hlt | hge
  · exact absurd ((List.pairwise_iff_getElem.1 h) j i hj hi hlt) (by omega)
  · have : i = j := by omega
    subst this; omega

section
variable {m pm qm rm : MMesh N P A} {sel sel2 sel12 required required2 required3 : List Nat}

theorem ElementsOf.eq_map (h : ElementsOf sel sel2 sel12) : sel12 = sel2.map fun n => sel.getD n 0 := by
  apply List.ext_getElem?
  intro k
  rw [List.getElem?_map]
  cases hk : sel2[k]? with
  | none =>
    rw [List.getElem?_eq_none_iff] at hk
    rw [List.getElem?_eq_none (by rw [h.1]; exact hk)]
    rfl
  | some n =>
    obtain ⟨e, h1, h2⟩ := h.2 k n hk
    simp [h2, List.getD_eq_getElem?_getD, h1]

/-- The groups begin at the same numbers. -/
theorem startOf_two (hs : sel.Pairwise (· < ·)) (hf : FilterSpec m sel pm.groups required)
    (he : ElementsOf sel sel2 sel12) {g : Nat} (hg : g ≤ m.groups.length) :
    startOf pm.sizes sel2 g = startOf m.sizes sel12 g := by
  have hbase : (pm.sizes.take g).sum = startOf m.sizes sel g := by
    unfold MMesh.sizes
    exact sum_take_telescope (startOf m.sizes sel) (fun i => startOf_mono _ _ (by omega))
      (startOf_zero _ _) hf.sizes (by simp [hf.length]; omega)
  rw [he.eq_map]
  unfold startOf
  rw [List.countP_map]
  refine List.countP_congr ?_
  intro n hn
  obtain ⟨k, hk⟩ := List.mem_iff_getElem?.1 hn
  obtain ⟨e, h1, -⟩ := he.2 k n hk
  simp only [decide_eq_true_eq, Function.comp_apply, List.getD_eq_getElem?_getD, h1, Option.getD_some]
  rw [hbase]
  exact lt_countP_iff hs _ n e h1

theorem sizes_two (hs : sel.Pairwise (· < ·))
    (hf : FilterSpec m sel pm.groups required) (hf2 : FilterSpec pm sel2 qm.groups required2)
    (hf3 : FilterSpec m sel12 rm.groups required3) (he : ElementsOf sel sel2 sel12) : qm.sizes = rm.sizes := by
  have hl : qm.groups.length = rm.groups.length := by rw [hf2.length, hf.length, hf3.length]
  apply List.ext_getElem?
  intro g
  by_cases hg : g < rm.groups.length
  · have h2 : g < qm.sizes.length := by simp [MMesh.sizes]; omega
    have h3 : g < rm.sizes.length := by simp [MMesh.sizes]; omega
    rw [List.getElem?_eq_getElem h2, List.getElem?_eq_getElem h3]
    have e2 := hf2.sizes g _ (List.getElem?_eq_getElem h2)
    have e3 := hf3.sizes g _ (List.getElem?_eq_getElem h3)
    have hgm : g < m.groups.length := by rw [← hf3.length]; exact hg
    rw [startOf_two hs hf he (by omega), startOf_two hs hf he (by omega)] at e2
    exact congrArg some (e2.trans e3.symm)
  · rw [List.getElem?_eq_none (by simp [MMesh.sizes]; omega), List.getElem?_eq_none (by simp [MMesh.sizes]; omega)]

/-- The elements of a group, in one step and in two. -/
theorem filtered_two (hs : sel.Pairwise (· < ·)) (hend : ∀ e ∈ sel, e < m.sizes.sum)
    (hs2 : sel2.Pairwise (· < ·)) (hend2 : ∀ e ∈ sel2, e < pm.sizes.sum)
    (hs3 : sel12.Pairwise (· < ·)) (hend3 : ∀ e ∈ sel12, e < m.sizes.sum)
    (hf : FilterSpec m sel pm.groups required) (he : ElementsOf sel sel2 sel12) {g j i2 : Nat}
    (hg : g < m.groups.length) (hj : (filteredElements pm.sizes sel2 g)[j]? = some i2) :
    ∃ i, (filteredElements m.sizes sel g)[i2]? = some i ∧ (filteredElements m.sizes sel12 g)[j]? = some i := by
  have hslen : m.sizes.length = m.groups.length := by simp [MMesh.sizes]
  have hpslen : pm.sizes.length = m.groups.length := by simp [MMesh.sizes, hf.length]
  have hbase : (pm.sizes.take g).sum = startOf m.sizes sel g := by
    unfold MMesh.sizes
    exact sum_take_telescope (startOf m.sizes sel) (fun i => startOf_mono _ _ (by omega))
      (startOf_zero _ _) hf.sizes (by simp [hf.length]; omega)
  obtain ⟨a1, a2⟩ := filteredElements_spec hs2 hend2 (g := g) (by omega)
  obtain ⟨b1, b2⟩ := filteredElements_spec hs hend (g := g) (by omega)
  obtain ⟨c1, c2⟩ := filteredElements_spec hs3 hend3 (g := g) (by omega)
  obtain ⟨k1, k2, k3⟩ := a2 j i2 hj
  have hi2 : i2 < (filteredElements m.sizes sel g).length := by
    rw [b1]
    have := hf.sizes g (pm.sizes[g]) (List.getElem?_eq_getElem (l := pm.sizes) (by omega))
    omega
  have hi := List.getElem?_eq_getElem hi2
  have hj3 : j < (filteredElements m.sizes sel12 g).length := by
    rw [c1, ← startOf_two hs hf he (by omega), ← startOf_two hs hf he (by omega), ← a1]
    exact (List.getElem?_eq_some_iff.1 hj).1
  have hi3 := List.getElem?_eq_getElem hj3
  obtain ⟨l1, _, _⟩ := b2 _ _ hi
  obtain ⟨n1, _, _⟩ := c2 _ _ hi3
  rw [hbase] at k1
  rw [startOf_two hs hf he (by omega)] at k1
  obtain ⟨e, q1, q2⟩ := he.2 _ _ k1
  rw [l1] at q1
  rw [n1] at q2
  refine ⟨_, hi, ?_⟩
  rw [hi3]
  have := (Option.some.inj q1).trans (Option.some.inj q2).symm
  congr 1
  omega

theorem filtered_length_two (hs : sel.Pairwise (· < ·))
    (hs2 : sel2.Pairwise (· < ·)) (hend2 : ∀ e ∈ sel2, e < pm.sizes.sum)
    (hs3 : sel12.Pairwise (· < ·)) (hend3 : ∀ e ∈ sel12, e < m.sizes.sum)
    (hf : FilterSpec m sel pm.groups required) (he : ElementsOf sel sel2 sel12) {g : Nat}
    (hg : g < m.groups.length) :
    (filteredElements pm.sizes sel2 g).length = (filteredElements m.sizes sel12 g).length := by
  have hslen : m.sizes.length = m.groups.length := by simp [MMesh.sizes]
  have hpslen : pm.sizes.length = m.groups.length := by simp [MMesh.sizes, hf.length]
  rw [(filteredElements_spec hs2 hend2 (g := g) (by omega)).1, (filteredElements_spec hs3 hend3 (g := g) (by omega)).1,
    startOf_two hs hf he (by omega), startOf_two hs hf he (by omega)]

/-- The vertices required in the second step are those required at once, by their numbers in the part. -/
theorem required_two (hs : sel.Pairwise (· < ·)) (hend : ∀ e ∈ sel, e < m.sizes.sum)
    (hs2 : sel2.Pairwise (· < ·)) (hend2 : ∀ e ∈ sel2, e < pm.sizes.sum)
    (hs3 : sel12.Pairwise (· < ·)) (hend3 : ∀ e ∈ sel12, e < m.sizes.sum)
    (hf : FilterSpec m sel pm.groups required) (hf2 : FilterSpec pm sel2 qm.groups required2)
    (hf3 : FilterSpec m sel12 rm.groups required3) (he : ElementsOf sel sel2 sel12) :
    (∀ v ∈ required3, v ∈ required) ∧ required2 = required3.map (npSearchsorted required ·) := by
  -- a row of the second step is a row of the original mesh
  have hback : ∀ (g j i2 : Nat) (grp1 : ElGroup N) (row1 : List Nat), pm.groups[g]? = some grp1 →
      (filteredElements pm.sizes sel2 g)[j]? = some i2 → grp1.vertexIndices[i2]? = some row1 →
      ∃ row : List Nat, row1 = row.map (npSearchsorted required ·) ∧ (∀ v ∈ row, v ∈ required) ∧ ∀ v ∈ row, v ∈ required3 := by
    intro g j i2 grp1 row1 hg1 hj hrow1
    have hlt : g < m.groups.length := by rw [← hf.length]; exact (List.getElem?_eq_some_iff.1 hg1).1
    obtain ⟨i, hi, hi3⟩ := filtered_two hs hend hs2 hend2 hs3 hend3 hf he hlt hj
    obtain ⟨grp1', e1, _, _, _, e2⟩ := hf.group g _ (List.getElem?_eq_getElem hlt)
    rw [hg1] at e1; obtain rfl := Option.some.inj e1
    obtain ⟨_, row, hrow, hin, hr1⟩ := e2 _ _ hi
    obtain ⟨grp3, _, _, _, _, e3⟩ := hf3.group g _ (List.getElem?_eq_getElem hlt)
    obtain ⟨_, row', hrow', hin3, _⟩ := e3 _ _ hi3
    rw [hrow] at hrow'; obtain rfl := Option.some.inj hrow'
    rw [hrow1] at hr1
    exact ⟨row, Option.some.inj hr1, hin, hin3⟩
  have hforth : ∀ v ∈ required3, v ∈ required ∧ npSearchsorted required v ∈ required2 := by
    intro v hv
    obtain ⟨g, j, i, grp, row, hg, hj, hrow, hvr⟩ := hf3.required_used v hv
    have hlt := (List.getElem?_eq_some_iff.1 hg).1
    have hj2 : j < (filteredElements pm.sizes sel2 g).length := by
      rw [filtered_length_two hs hs2 hend2 hs3 hend3 hf he hlt]
      exact (List.getElem?_eq_some_iff.1 hj).1
    obtain ⟨i', hi, hi3⟩ := filtered_two hs hend hs2 hend2 hs3 hend3 hf he hlt (List.getElem?_eq_getElem hj2)
    rw [hj] at hi3; obtain rfl := Option.some.inj hi3
    obtain ⟨grp1, e1, _, _, _, e2⟩ := hf.group g _ hg
    obtain ⟨_, row', hrow', hin, hr1⟩ := e2 _ _ hi
    rw [hrow] at hrow'; obtain rfl := Option.some.inj hrow'
    obtain ⟨grp2, _, _, _, _, e3⟩ := hf2.group g _ e1
    obtain ⟨_, row1, hrow1, hin2, _⟩ := e3 _ _ (List.getElem?_eq_getElem hj2)
    rw [hr1] at hrow1; obtain rfl := Option.some.inj hrow1
    exact ⟨hin v hvr, hin2 _ (List.mem_map_of_mem hvr)⟩
  refine ⟨fun v hv => (hforth v hv).1, ?_⟩
  refine eq_of_sorted hf2.required_sorted ?_ ?_
  · rw [List.pairwise_map]
    refine hf3.required_sorted.imp_of_mem ?_
    intro a b ha hb hab
    exact npSearchsorted_lt hf.required_sorted (hforth a ha).1 (hforth b hb).1 hab
  · intro x
    rw [List.mem_map]
    constructor
    · intro hx
      obtain ⟨g, j, i2, grp1, row1, hg1, hj, hrow1, hxr⟩ := hf2.required_used x hx
      obtain ⟨row, rfl, _, h3⟩ := hback g j i2 grp1 row1 hg1 hj hrow1
      obtain ⟨v, hv, rfl⟩ := List.mem_map.1 hxr
      exact ⟨v, h3 v hv, rfl⟩
    · rintro ⟨v, hv, rfl⟩
      exact (hforth v hv).2

end

section
variable {m pm qm rm : MMesh N P A} {parts parts2 parts3 : Parts} {p q r : Nat} {sel sel2 sel12 : List Nat}

/-- The ingredients of a part, given its list of elements. -/
theorem partSpec_of {m : MMesh N P A} {parts : Parts} {p : Nat} {pm : MMesh N P A} {sel : List Nat}
    (hids : (parts.map Prod.fst).Nodup) (hsorted : ∀ p ∈ parts, p.2.Pairwise (· < ·))
    (h : getMeshPart m parts p = .ok pm) (hsel : (p, sel) ∈ parts) :
    ∃ pidx required, PartSpec m parts p pm pidx sel required ∧ ValidParts (nelements m.sizes) parts ∧
      FilterSpec m sel pm.groups required ∧ sel.Pairwise (· < ·) ∧ ∀ e ∈ sel, e < m.sizes.sum := by
  obtain ⟨pidx, sel', required, hs⟩ := getMeshPart_ok h
  obtain ⟨i0, hi0⟩ := List.mem_iff_getElem?.1 hsel
  obtain ⟨rfl, rfl⟩ := parts_index_unique hids hi0 hs.part
  have hv := hs.valid hids hsorted
  exact ⟨_, _, hs, hv, hs.filterSpec hv, (hs.selSorted hv).1, (hs.selSorted hv).2⟩

/-- C117: the part of a part has the same vertices and the same groups (elements with their nodes, vertex numbers) as the
part made at once. -/
theorem C117_groups (H : TwoSteps m parts p pm sel parts2 q qm sel2 parts3 r rm sel12) :
    qm.groups = rm.groups ∧ qm.vertices = rm.vertices := by
  obtain ⟨_, required, hp, _, hf, hs, hend⟩ := partSpec_of H.ids H.sorted H.first H.mem
  obtain ⟨_, required2, hp2, _, hf2, hs2, hend2⟩ := partSpec_of H.ids2 H.sorted2 H.second H.mem2
  obtain ⟨_, required3, hp3, _, hf3, hs3, hend3⟩ := partSpec_of H.ids3 H.sorted3 H.once H.mem3
  obtain ⟨hsub, hreq⟩ := required_two hs hend hs2 hend2 hs3 hend3 hf hf2 hf3 H.same
  have hss : ∀ v ∈ required3, npSearchsorted required2 (npSearchsorted required v) = npSearchsorted required3 v := by
    intro v hv
    obtain ⟨i, hi, rfl⟩ := List.mem_iff_getElem.1 hv
    rw [npSearchsorted_getElem hf3.required_sorted i hi]
    have h1 : i < required2.length := by rw [hreq, List.length_map]; exact hi
    have h2 : required2[i] = npSearchsorted required required3[i] := by simp [hreq]
    rw [← h2, npSearchsorted_getElem hf2.required_sorted i h1]
  constructor
  · have hl : qm.groups.length = rm.groups.length := by rw [hf2.length, hf.length, hf3.length]
    apply List.ext_getElem?
    intro g
    by_cases hg : g < m.groups.length
    · have hgm := List.getElem?_eq_getElem hg
      generalize m.groups[g] = grp at hgm
      obtain ⟨grp1, a1, a2, a3, a4, a5⟩ := hf.group g grp hgm
      obtain ⟨grp2, b1, b2, b3, b4, b5⟩ := hf2.group g grp1 a1
      obtain ⟨grp3, c1, c2, c3, c4, c5⟩ := hf3.group g grp hgm
      rw [b1, c1]
      have hsz := sizes_two hs hf hf2 hf3 H.same
      have hnl : grp2.nodes.length = grp3.nodes.length := by
        have h2 : qm.sizes[g]? = some grp2.nodes.length := by rw [sizes_getElem?, b1]; rfl
        have h3 : rm.sizes[g]? = some grp3.nodes.length := by rw [sizes_getElem?, c1]; rfl
        rw [hsz, h3] at h2
        exact (Option.some.inj h2).symm
      have hfl : (filteredElements pm.sizes sel2 g).length = grp2.nodes.length := by
        have hpslen : pm.sizes.length = m.groups.length := by simp [MMesh.sizes, hf.length]
        rw [(filteredElements_spec hs2 hend2 (g := g) (by omega)).1]
        exact (hf2.sizes g _ (by rw [List.getElem?_map, b1]; rfl)).symm
      have key : ∀ j < grp2.nodes.length, grp2.nodes[j]? = grp3.nodes[j]? ∧
          grp2.vertexIndices[j]? = grp3.vertexIndices[j]? := by
        intro j hj
        have hj2 := List.getElem?_eq_getElem (by rw [hfl]; exact hj : j < (filteredElements pm.sizes sel2 g).length)
        obtain ⟨i, hi, hi3⟩ := filtered_two hs hend hs2 hend2 hs3 hend3 hf H.same hg hj2
        obtain ⟨⟨x1, x2, x3⟩, row, y1, y2, y3⟩ := a5 _ _ hi
        obtain ⟨⟨x1', x2', x3'⟩, row', y1', y2', y3'⟩ := b5 _ _ hj2
        obtain ⟨⟨x1'', x2'', x3''⟩, row'', y1'', y2'', y3''⟩ := c5 _ _ hi3
        rw [x2] at x3'; obtain rfl := Option.some.inj x3'
        rw [x3] at x3''; obtain rfl := Option.some.inj x3''
        rw [y3] at y1'; obtain rfl := Option.some.inj y1'
        rw [y1] at y1''; obtain rfl := Option.some.inj y1''
        refine ⟨x2'.trans x2''.symm, ?_⟩
        rw [y3', y3'', List.map_map]
        congr 1
        apply List.map_congr_left
        intro v hv
        exact hss v (y2'' v hv)
      have hn : grp2.nodes = grp3.nodes := by
        apply List.ext_getElem?
        intro j
        by_cases hj : j < grp2.nodes.length
        · exact (key j hj).1
        · rw [List.getElem?_eq_none (by omega), List.getElem?_eq_none (by omega)]
      have hv : grp2.vertexIndices = grp3.vertexIndices := by
        apply List.ext_getElem?
        intro j
        by_cases hj : j < grp2.nodes.length
        · exact (key j hj).2
        · rw [List.getElem?_eq_none (by omega), List.getElem?_eq_none (by omega)]
      obtain ⟨k2, f2, v2, n2⟩ := grp2
      obtain ⟨k3, f3, v3, n3⟩ := grp3
      simp only at hn hv b2 b3 c2 c3
      rw [b2, b3, c2, c3, hn, hv, a2, a3]
    · have := hf3.length
      rw [List.getElem?_eq_none (by omega), List.getElem?_eq_none (by omega)]
  · have h1 := selectRows_getElem? hp.vertices
    have h2 := selectRows_getElem? hp2.vertices
    have h3 := selectRows_getElem? hp3.vertices
    have hl : required2.length = required3.length := by rw [hreq, List.length_map]
    apply List.ext_getElem?
    intro i
    by_cases hi : i < required3.length
    · have e3 := List.getElem?_eq_getElem hi
      have e2 : required2[i]? = some (npSearchsorted required required3[i]) := by
        rw [hreq, List.getElem?_map, e3]; rfl
      obtain ⟨a, a1, a2⟩ := h2.2 i _ e2
      obtain ⟨b, b1, b2⟩ := h3.2 i _ e3
      obtain ⟨c, c1, c2⟩ := h1.2 _ _ (npSearchsorted_of_mem hf.required_sorted (hsub _ (List.getElem_mem hi)))
      rw [a1, b1, ← a2, ← b2, c1, c2]
    · rw [List.getElem?_eq_none (by omega), List.getElem?_eq_none (by omega)]

/-! ## Faces -/

theorem sameFace_two (H : TwoSteps m parts p pm sel parts2 q qm sel2 parts3 r rm sel12) (f' f : FaceId) :
    SameFace m rm sel12 f' f ↔ ∃ f1, SameFace pm qm sel2 f' f1 ∧ SameFace m pm sel f1 f := by
  obtain ⟨_, required, hp, _, hf, hs, hend⟩ := partSpec_of H.ids H.sorted H.first H.mem
  obtain ⟨_, required2, hp2, _, hf2, hs2, hend2⟩ := partSpec_of H.ids2 H.sorted2 H.second H.mem2
  have hsz : qm.sizes = rm.sizes := by unfold MMesh.sizes; rw [(C117_groups H).1]
  constructor
  · rintro ⟨a1, a2, k, e, hk, h1, h2⟩
    rw [H.same.eq_map, List.getElem?_map, Option.map_eq_some_iff] at hk
    obtain ⟨n, hn, _⟩ := hk
    obtain ⟨e', he', hk'⟩ := H.same.2 k n hn
    have hk : sel12[k]? = some e := by rw [H.same.eq_map, List.getElem?_map, hn]; simpa
    rw [hk] at hk'; obtain rfl := Option.some.inj hk'
    obtain ⟨sz, hsz', h3, h4⟩ := h2
    have hblock := (startOf_block (sizes := m.sizes) (g := f.grp) hs he').2 (by rw [take_succ_sum hsz']; omega)
    have hgl := (isGlobalNr_part hs hf he' (g := f.grp) (n - startOf m.sizes sel f.grp)).2
      ⟨⟨_, sz, hsz', h3, h4⟩, by omega⟩
    refine ⟨⟨f.grp, n - startOf m.sizes sel f.grp, f.face⟩, ⟨a1, a2, k, n, hn, hsz ▸ h1, hgl⟩, rfl, rfl, n, e, he', hgl,
      sz, hsz', h3, h4⟩
  · rintro ⟨f1, ⟨a1, a2, k, n, hn, h1, h2⟩, b1, b2, n', e, he, h3, h4⟩
    obtain ⟨z, z1, z2, z3⟩ := h2
    obtain ⟨z', z1', z2', z3'⟩ := h3
    rw [b1] at z1 z3
    obtain rfl : n = n' := by omega
    obtain ⟨e', he', hk'⟩ := H.same.2 k n hn
    rw [he] at he'; obtain rfl := Option.some.inj he'
    exact ⟨a1.trans b1, a2.trans b2, k, e, hk', hsz ▸ (b1 ▸ h1), h4⟩

/-- A copy of a face is a face. -/
theorem isFace_copy {m pm : MMesh N P A} {sel required : List Nat} (hf : FilterSpec m sel pm.groups required)
    {f' f : FaceId} (hs : SameFace m pm sel f' f) (h : IsFace m.groups f) : IsFace pm.groups f' := by
  obtain ⟨grp, hg, h1, _⟩ := h
  obtain ⟨grp1, e1, _, e3, _, _⟩ := hf.group _ grp hg
  obtain ⟨a1, a2, k, e, _, ⟨n, n1, n2, _⟩, _⟩ := hs
  rw [sizes_getElem?, e1] at n1
  obtain rfl := Option.some.inj n1
  refine ⟨grp1, by rw [a1]; exact e1, ?_, n2⟩
  rw [a2, ElGroup.nfaces, e3]
  exact h1

/-- The copy of an element is the element's position among those selected. -/
theorem sameElem_filtered {m pm : MMesh N P A} {sel required : List Nat} (hso : sel.Pairwise (· < ·))
    (hra : ∀ e ∈ sel, e < m.sizes.sum) (hf : FilterSpec m sel pm.groups required) {g i' i : Nat}
    (h : SameElem m pm sel g i' i) : (filteredElements m.sizes sel g)[i']? = some i := by
  have hslen : m.sizes.length = m.groups.length := by simp [MMesh.sizes]
  obtain ⟨k, e, hk, hgl, n, hn, hin, he⟩ := h
  rw [sizes_getElem?, Option.map_eq_some_iff] at hn
  obtain ⟨grp, hg, rfl⟩ := hn
  have hlt : g < m.sizes.length := by rw [hslen]; exact (List.getElem?_eq_some_iff.1 hg).1
  have hk' := ((isGlobalNr_part hso hf hk i').1 hgl).2
  have hblock := (startOf_block (sizes := m.sizes) (g := g) hso hk).2 (by
    rw [take_succ_sum (n := grp.nelements) (by rw [sizes_getElem?, hg]; rfl)]; omega)
  obtain ⟨f1, f2⟩ := filteredElements_spec hso hra hlt
  have hj : i' < (filteredElements m.sizes sel g).length := by omega
  have hji := List.getElem?_eq_getElem hj
  have h3 := (f2 _ _ hji).1
  rw [← hk', hk] at h3
  simp only [Option.some.injEq] at h3
  have h4 : (filteredElements m.sizes sel g)[i'] = i := by omega
  rw [h4] at hji
  exact hji

/-- C117: a part of a well-formed mesh is well-formed: its groups have vertex numbers for all faces of all elements, and
its vertex numbers are those of vertices it has. -/
theorem C117_part_ok {m : MMesh N P A} (hm : MeshOK m) {parts : Parts} {p : Nat} {pm : MMesh N P A}
    (hids : (parts.map Prod.fst).Nodup) (hsorted : ∀ p ∈ parts, p.2.Pairwise (· < ·))
    (h : getMeshPart m parts p = .ok pm) : MeshOK pm := by
  obtain ⟨pidx, sel, required, hs⟩ := getMeshPart_ok h
  have hv := hs.valid hids hsorted
  have hf := hs.filterSpec hv
  obtain ⟨hso, hra⟩ := hs.selSorted hv
  obtain ⟨v1, v2⟩ := selectRows_getElem? hs.vertices
  have hslen : m.sizes.length = m.groups.length := by simp [MMesh.sizes]
  have hrows : ∀ grp' ∈ pm.groups, grp'.vertexIndices.length = grp'.nodes.length ∧
      ∀ row' ∈ grp'.vertexIndices, ∃ grp ∈ m.groups, grp'.fvi = grp.fvi ∧ ∃ row ∈ grp.vertexIndices,
        (∀ v ∈ row, v ∈ required) ∧ row' = row.map (npSearchsorted required ·) := by
    intro grp' hg'
    obtain ⟨g, hg1⟩ := List.mem_iff_getElem?.1 hg'
    have hlt : g < m.groups.length := by rw [← hf.length]; exact (List.getElem?_eq_some_iff.1 hg1).1
    obtain ⟨grp2, k1, _, k2, k3, k4⟩ := hf.group g _ (List.getElem?_eq_getElem hlt)
    rw [hg1] at k1
    obtain rfl := Option.some.inj k1
    refine ⟨k3, fun row' hr => ?_⟩
    obtain ⟨j, hj⟩ := List.mem_iff_getElem?.1 hr
    have hjlt : j < grp'.nodes.length := by rw [← k3]; exact (List.getElem?_eq_some_iff.1 hj).1
    have hsz := hf.sizes g grp'.nelements (by simp [hg1])
    obtain ⟨f1, _⟩ := filteredElements_spec hso hra (g := g) (by omega)
    have hjf : j < (filteredElements m.sizes sel g).length := by
      rw [f1, ← hsz]; exact hjlt
    obtain ⟨_, row, r1, r2, r3⟩ := k4 j _ (List.getElem?_eq_getElem hjf)
    rw [hj] at r3
    exact ⟨_, List.getElem_mem hlt, k2, row, List.mem_of_getElem? r1, r2, Option.some.inj r3⟩
  refine ⟨fun grp' hg' => ⟨(hrows grp' hg').1, fun row' hr ref href k hk => ?_⟩, fun grp' hg' row' hr v hvr => ?_⟩
  · obtain ⟨grp, hg, e1, row, hrow, _, rfl⟩ := (hrows grp' hg').2 row' hr
    rw [List.length_map]
    exact (hm.wf grp hg).2 row hrow ref (e1 ▸ href) k hk
  · obtain ⟨grp, hg, _, row, hrow, hreq, rfl⟩ := (hrows grp' hg').2 row' hr
    obtain ⟨w, hw, rfl⟩ := List.mem_map.1 hvr
    obtain ⟨x, hx, _⟩ := v2 _ _ (npSearchsorted_of_mem hf.required_sorted (hreq w hw))
    exact (List.getElem?_eq_some_iff.1 hx).1

/-- C117: a part can be partitioned again by exactly the partitions of its elements. -/
theorem C117_defined {m : MMesh N P A} (hm : MeshOK m) {parts : Parts} {p : Nat} {pm : MMesh N P A}
    (hids : (parts.map Prod.fst).Nodup) (hsorted : ∀ p ∈ parts, p.2.Pairwise (· < ·))
    (h : getMeshPart m parts p = .ok pm) {parts2 : Parts} (hids2 : (parts2.map Prod.fst).Nodup)
    (hsorted2 : ∀ p ∈ parts2, p.2.Pairwise (· < ·)) {q : Nat} (hq : q ∈ parts2.map Prod.fst) :
    (∃ qm, getMeshPart pm parts2 q = .ok qm) ↔ ValidParts (nelements pm.sizes) parts2 :=
  C09_accepts_exactly_partitions (C117_part_ok hm hids hsorted h) hids2 hsorted2 hq

theorem inBoundary_iff {fags : List (List (Fag A))} {t : BTag} {f : FaceId} :
    InBoundary fags t f ↔ ∃ l, fags[f.grp]? = some l ∧ ListedUnder l t ⟨f.el, f.face⟩ := by
  constructor
  · rintro ⟨l, fg, fs, h1, h2, h3, h4⟩; exact ⟨l, h1, fg, h2, fs, h3, h4⟩
  · rintro ⟨l, h1, fg, h2, fs, h3, h4⟩; exact ⟨l, fg, fs, h1, h2, h3, h4⟩

/-- What a part lists before the completion of the tags comes from an interior face towards another part, or from a
boundary face. -/
theorem listed_part {m : MMesh N P A} (ha : AdjOK m) {parts : Parts} {p : Nat} {pm : MMesh N P A} {pidx : Nat}
    {sel required : List Nat} (hs : PartSpec m parts p pm pidx sel required)
    (hv : ValidParts (nelements m.sizes) parts) {i : Nat} {l : List (Fag A)} (hl : m.fags[i]? = some l) {t : BTag}
    {x : ElFace}
    (hx : ListedUnder (selfToSelf m (globalElemToPart (nelements m.sizes) parts) pidx (selfGroupBase pm.sizes) i l
      ++ selfToOther m (globalElemToPart (nelements m.sizes) parts) pidx (selfGroupBase pm.sizes)
        (connectedParts m parts (globalElemToPart (nelements m.sizes) parts) pidx) i l
      ++ partBoundaryGroups m (globalElemToPart (nelements m.sizes) parts) pidx
        (selfGroupBase pm.sizes) i l) t x) :
    ∃ f, IsFace m.groups f ∧ SameFace m pm sel ⟨i, x.el, x.face⟩ f := by
  obtain ⟨fg, hfg, fs, hb, hxs⟩ := hx
  rw [List.mem_append, List.mem_append] at hfg
  rcases hfg with (hfg | hfg) | hfg
  · rw [not_interPart_selfToSelf hfg] at hb; simp at hb
  · obtain ⟨a, j, rows0, aff, q, h0, _, rfl, _⟩ := mem_selfToOther.1 hfg
    simp only [Fag.bdry?, Option.some.injEq, Prod.mk.injEq] at hb
    obtain ⟨rfl, rfl⟩ := hb
    obtain ⟨r, hr, rfl⟩ := List.mem_map.1 hxs
    obtain ⟨r0, hr0, hr⟩ := List.mem_filterMap.1 hr
    obtain ⟨k, k', hk, _, rfl⟩ := otherRow_eq_some.1 hr
    obtain ⟨_, hrows⟩ := ha.interior i l a j rows0 aff hl h0
    obtain ⟨grp, hg, h1, h2⟩ := (hrows r0 hr0).1
    refine ⟨⟨i, r0.el, r0.face⟩, ⟨grp, hg, h1, h2⟩, rfl, rfl, ?_⟩
    exact (partOf_sameElem hs hv hg h2).2 ⟨k, hk, rfl⟩
  · obtain ⟨y, k, hy, hk, rfl⟩ := mem_partBoundary.1 ⟨fg, hfg, fs, hb, hxs⟩
    obtain ⟨grp, hg, h1, h2⟩ := ha.boundary t ⟨i, y.el, y.face⟩ (inBoundary_iff.2 ⟨l, hl, hy⟩)
    refine ⟨⟨i, y.el, y.face⟩, ⟨grp, hg, h1, h2⟩, rfl, rfl, ?_⟩
    exact (partOf_sameElem hs hv hg h2).2 ⟨k, hk, rfl⟩

/-- C117: the facial adjacency of a part refers to existing faces only, if that of the mesh does; and each of its groups
has entries for the three predefined tags. -/
theorem C117_part_adjacency {m : MMesh N P A} (ha : AdjOK m) {parts : Parts} {p : Nat} {pm : MMesh N P A}
    (hids : (parts.map Prod.fst).Nodup) (hsorted : ∀ p ∈ parts, p.2.Pairwise (· < ·))
    (h : getMeshPart m parts p = .ok pm) :
    AdjOK pm ∧ ∀ l ∈ pm.fags, HasEntry l .none ∧ HasEntry l .all ∧ HasEntry l .reallyAll := by
  obtain ⟨pidx, sel, required, hs⟩ := getMeshPart_ok h
  have hv := hs.valid hids hsorted
  have hf := hs.filterSpec hv
  have hmem := List.mem_of_getElem? hs.part
  refine ⟨⟨?_, ?_, ?_⟩, ?_⟩
  · have : pm.fags.length = m.fags.length := by
      rw [hs.fags]
      simp [completeFacial]
    rw [this, ha.length, hf.length]
  · intro i l' a j rows aff hl' hfg
    rw [part_fags_getElem? hs] at hl'
    obtain ⟨l, hl, rfl⟩ := Option.map_eq_some_iff.1 hl'
    rcases mem_completeGroup.1 hfg with h1 | ⟨_, h1⟩ | ⟨_, h1⟩ | ⟨_, h1⟩
    · rw [List.mem_append, List.mem_append] at h1
      rcases h1 with (h1 | h1) | h1
      · have hai : a = i := by
          simp only [selfToSelf, List.mem_filterMap] at h1
          obtain ⟨fg, _, h2⟩ := h1
          cases fg with
          | interior =>
            simp only at h2
            split at h2
            · simp at h2
            · simp only [Option.some.injEq, Fag.interior.injEq] at h2
              exact h2.1.symm
          | boundary => simp at h2
          | interPart => simp at h2
        refine ⟨hai, fun r hr => ?_⟩
        obtain ⟨_, a', rows0, r0, k, k', c1, c2, c3, c4, rfl⟩ := mem_selfToSelf ⟨h1, hr⟩
        obtain ⟨_, hrows⟩ := ha.interior i l a' j rows0 aff hl c1
        obtain ⟨d1, d2⟩ := hrows r0 c2
        refine ⟨isFace_copy hf (f := ⟨i, r0.el, r0.face⟩) ⟨rfl, rfl, ?_⟩ d1,
          isFace_copy hf (f := ⟨j, r0.nel, r0.nface⟩) ⟨rfl, rfl, ?_⟩ d2⟩
        · obtain ⟨grp, hg, _, h2⟩ := d1
          exact (partOf_sameElem hs hv hg h2).2 ⟨k, c3, rfl⟩
        · obtain ⟨grp, hg, _, h2⟩ := d2
          exact (partOf_sameElem hs hv hg h2).2 ⟨k', c4, rfl⟩
      · exact absurd h1 not_interior_selfToOther
      · simp [partBoundaryGroups] at h1
    · simp at h1
    · simp at h1
    · simp at h1
  · intro t f hb
    obtain ⟨l', hl', hx⟩ := inBoundary_iff.1 hb
    rw [part_fags_getElem? hs] at hl'
    obtain ⟨l, hl, rfl⟩ := Option.map_eq_some_iff.1 hl'
    obtain ⟨_, _, c3, c4, c5, c6⟩ := C05_completion f.grp
      (selfToSelf m (globalElemToPart (nelements m.sizes) parts) pidx (selfGroupBase pm.sizes) f.grp l
      ++ selfToOther m (globalElemToPart (nelements m.sizes) parts) pidx (selfGroupBase pm.sizes)
        (connectedParts m parts (globalElemToPart (nelements m.sizes) parts) pidx) f.grp l
      ++ partBoundaryGroups m (globalElemToPart (nelements m.sizes) parts) pidx
        (selfGroupBase pm.sizes) f.grp l)
    have hx' : ∃ t', ListedUnder (selfToSelf m (globalElemToPart (nelements m.sizes) parts) pidx
        (selfGroupBase pm.sizes) f.grp l
      ++ selfToOther m (globalElemToPart (nelements m.sizes) parts) pidx (selfGroupBase pm.sizes)
        (connectedParts m parts (globalElemToPart (nelements m.sizes) parts) pidx) f.grp l
      ++ partBoundaryGroups m (globalElemToPart (nelements m.sizes) parts) pidx
        (selfGroupBase pm.sizes) f.grp l) t' ⟨f.el, f.face⟩ := by
      by_cases hE : HasEntry (selfToSelf m (globalElemToPart (nelements m.sizes) parts) pidx
          (selfGroupBase pm.sizes) f.grp l
        ++ selfToOther m (globalElemToPart (nelements m.sizes) parts) pidx (selfGroupBase pm.sizes)
          (connectedParts m parts (globalElemToPart (nelements m.sizes) parts) pidx) f.grp l
        ++ partBoundaryGroups m (globalElemToPart (nelements m.sizes) parts) pidx
          (selfGroupBase pm.sizes) f.grp l) t
      · exact ⟨t, (c3 t _ (Or.inl hE)).1 hx⟩
      · by_cases h1 : t = .none
        · subst h1; exact absurd hx (c4 _ hE)
        · by_cases h2 : t = .all
          · subst h2
            obtain ⟨t', _, ht'⟩ := (c6 _ hE).1 hx
            exact ⟨t', ht'⟩
          · by_cases h3 : t = .reallyAll
            · subst h3
              exact (c5 _ hE).1 hx
            · exact ⟨t, (c3 t _ (Or.inr ⟨h1, h2, h3⟩)).1 hx⟩
    obtain ⟨t', ht'⟩ := hx'
    obtain ⟨f0, d1, d2⟩ := listed_part ha hs hv hl ht'
    exact isFace_copy hf (f' := f) d2 d1
  · intro l' hl'
    obtain ⟨i, hi⟩ := List.mem_iff_getElem?.1 hl'
    rw [part_fags_getElem? hs] at hi
    obtain ⟨l, hl, rfl⟩ := Option.map_eq_some_iff.1 hi
    have := (C05_completion i
      (selfToSelf m (globalElemToPart (nelements m.sizes) parts) pidx (selfGroupBase pm.sizes) i l
      ++ selfToOther m (globalElemToPart (nelements m.sizes) parts) pidx (selfGroupBase pm.sizes)
        (connectedParts m parts (globalElemToPart (nelements m.sizes) parts) pidx) i l
      ++ partBoundaryGroups m (globalElemToPart (nelements m.sizes) parts) pidx
        (selfGroupBase pm.sizes) i l)).2.1
    exact ⟨this _ (Or.inl rfl), this _ (Or.inr (Or.inl rfl)), this _ (Or.inr (Or.inr rfl))⟩

/-- C117: the same faces are neighbors, through the same maps. -/
theorem C117_neighbors (ha : AdjOK m) (H : TwoSteps m parts p pm sel parts2 q qm sel2 parts3 r rm sel12) (aff : A)
    (f f' : FaceId) : IsNeighborVia qm.fags aff f f' ↔ IsNeighborVia rm.fags aff f f' := by
  have hap := (C117_part_adjacency ha H.ids H.sorted H.first).1
  rw [C11_part_internal_connectivity hap H.ids2 H.sorted2 H.second H.mem2,
    C11_part_internal_connectivity ha H.ids3 H.sorted3 H.once H.mem3]
  simp only [C11_part_internal_connectivity ha H.ids H.sorted H.first H.mem, sameFace_two H]
  constructor
  · rintro ⟨f1, f2, h1, h2, g1, g2, h3, h4, h5⟩
    exact ⟨g1, g2, ⟨f1, h1, h3⟩, ⟨f2, h2, h4⟩, h5⟩
  · rintro ⟨g1, g2, ⟨f1, h1, h3⟩, ⟨f2, h2, h4⟩, h5⟩
    exact ⟨f1, f2, h1, h2, g1, g2, h3, h4, h5⟩

/-- C117: the same faces are listed under each tag other than those of inter-part boundaries. -/
theorem C117_boundary (ha : AdjOK m)
    (hentry : ∀ l ∈ m.fags, HasEntry l .none ∧ HasEntry l .all ∧ HasEntry l .reallyAll)
    (H : TwoSteps m parts p pm sel parts2 q qm sel2 parts3 r rm sel12) (t : BTag) (ht : ∀ q, t ≠ .partition q)
    (f : FaceId) : InBoundary qm.fags t f ↔ InBoundary rm.fags t f := by
  obtain ⟨hap, hentry'⟩ := C117_part_adjacency ha H.ids H.sorted H.first
  rw [C13_part_boundary_partial hap hentry' H.ids2 H.sorted2 H.second H.mem2 t ht,
    C13_part_boundary_partial ha hentry H.ids3 H.sorted3 H.once H.mem3 t ht]
  simp only [C13_part_boundary_partial ha hentry H.ids H.sorted H.first H.mem t ht, sameFace_two H]
  constructor
  · rintro ⟨f1, h1, f2, h2, h3⟩
    exact ⟨f2, ⟨f1, h1, h2⟩, h3⟩
  · rintro ⟨f2, ⟨f1, h1, h2⟩, h3⟩
    exact ⟨f1, h1, f2, h2, h3⟩

/-- C117: what the part of the part records of another part `q'` of the same first part is what the part made at once
records of the part `r'` with the same elements. -/
theorem C117_inter_part (ha : AdjOK m) (H : TwoSteps m parts p pm sel parts2 q qm sel2 parts3 r rm sel12)
    {q' r' : Nat} {sel2' sel12' : List Nat} (hq' : (q', sel2') ∈ parts2) (hr' : (r', sel12') ∈ parts3)
    (he : ElementsOf sel sel2' sel12') (hne : q' = q ↔ r' = r) (aff : A) (f : FaceId) (n nf : Nat) :
    FacesPart qm.fags aff f q' n nf ↔ FacesPart rm.fags aff f r' n nf := by
  have hap := (C117_part_adjacency ha H.ids H.sorted H.first).1
  obtain ⟨_, required, hp, _, hf, hs, hend⟩ := partSpec_of H.ids H.sorted H.first H.mem
  rw [C12_inter_part_exact hap H.ids2 H.sorted2 H.second H.mem2,
    C12_inter_part_exact ha H.ids3 H.sorted3 H.once H.mem3]
  simp only [C11_part_internal_connectivity ha H.ids H.sorted H.first H.mem, sameFace_two H, ne_eq, hne]
  refine and_congr_right fun _ => ?_
  constructor
  · rintro ⟨f1, f2, selq, e2, h1, h2, h3, h4, rfl, g1, g2, h5, h6, h7⟩
    obtain ⟨i, hi⟩ := List.mem_iff_getElem?.1 hq'
    obtain ⟨j, hj⟩ := List.mem_iff_getElem?.1 h2
    obtain ⟨_, rfl⟩ := parts_index_unique H.ids2 hi hj
    obtain ⟨e, k1, k2⟩ := he.2 n e2 h3
    obtain ⟨a1, a2, k, e', b1, b2, b3⟩ := h6
    obtain ⟨z, z1, z2, z3⟩ := h4
    obtain ⟨z', z1', z2', z3'⟩ := b2
    rw [a1] at z1 z3
    obtain rfl : k = e2 := by omega
    rw [k1] at b1; obtain rfl := Option.some.inj b1
    exact ⟨g1, g2, sel12', e, ⟨f1, h1, h5⟩, hr', k2, b3, a2.symm, h7⟩
  · rintro ⟨g1, g2, selr, e, ⟨f1, h1, h5⟩, h2, h3, h4, rfl, h7⟩
    obtain ⟨i, hi⟩ := List.mem_iff_getElem?.1 hr'
    obtain ⟨j, hj⟩ := List.mem_iff_getElem?.1 h2
    obtain ⟨_, rfl⟩ := parts_index_unique H.ids3 hi hj
    have hk := h3
    rw [he.eq_map, List.getElem?_map, Option.map_eq_some_iff] at hk
    obtain ⟨e2, hn, _⟩ := hk
    obtain ⟨e', k1, k2⟩ := he.2 n e2 hn
    rw [h3] at k2; obtain rfl := Option.some.inj k2
    obtain ⟨sz, hsz', h8, h9⟩ := h4
    have hblock := (startOf_block (sizes := m.sizes) (g := g2.grp) hs k1).2 (by rw [take_succ_sum hsz']; omega)
    have hgl := (isGlobalNr_part hs hf k1 (g := g2.grp) (e2 - startOf m.sizes sel g2.grp)).2
      ⟨⟨_, sz, hsz', h8, h9⟩, by omega⟩
    exact ⟨f1, ⟨g2.grp, e2 - startOf m.sizes sel g2.grp, g2.face⟩, sel2', e2, h1, hq', hn, hgl, rfl, g1, g2, h5,
      ⟨rfl, rfl, e2, e, k1, hgl, sz, hsz', h8, h9⟩, h7⟩

end

/-! ## What the second step forgets -/

/-- C117: a face of a part is listed under the tag of the boundary towards part `q` exactly if it is recorded to face an
element of part `q`, or if it is the copy of a face that the mesh lists under that tag.  In the latter case (the mesh is
itself a part) nothing is known of the element on the other side. -/
theorem C117_partition_tag {m : MMesh N P A} (ha : AdjOK m) {parts : Parts} {p : Nat} {pm : MMesh N P A}
    {sel : List Nat} (hids : (parts.map Prod.fst).Nodup) (hsorted : ∀ p ∈ parts, p.2.Pairwise (· < ·))
    (h : getMeshPart m parts p = .ok pm) (hsel : (p, sel) ∈ parts) (q : Nat) (f : FaceId) :
    InBoundary pm.fags (.partition q) f ↔
      (∃ aff n nf, FacesPart pm.fags aff f q n nf) ∨
        ∃ f0, SameFace m pm sel f f0 ∧ InBoundary m.fags (.partition q) f0 := by
  obtain ⟨pidx, required, hs, hv, hf, _, _⟩ := partSpec_of hids hsorted h hsel
  constructor
  · intro hb
    obtain ⟨l', hl', hx⟩ := inBoundary_iff.1 hb
    rw [part_fags_getElem? hs] at hl'
    obtain ⟨l, hl, rfl⟩ := Option.map_eq_some_iff.1 hl'
    rw [(C05_completion f.grp _).2.2.1 _ _ (Or.inr ⟨by simp, by simp, by simp⟩)] at hx
    obtain ⟨fg, hfg, fs, hb, hxs⟩ := hx
    have hfg0 := hfg
    rw [List.mem_append, List.mem_append] at hfg
    rcases hfg with (hfg | hfg) | hfg
    · rw [not_interPart_selfToSelf hfg] at hb; simp at hb
    · obtain ⟨a, j, rows0, aff, q', h0, _, rfl, _⟩ := mem_selfToOther.1 hfg
      simp only [Fag.bdry?, Option.some.injEq, Prod.mk.injEq, BTag.partition.injEq] at hb
      obtain ⟨rfl, rfl⟩ := hb
      obtain ⟨r, hr, he⟩ := List.mem_map.1 hxs
      simp only [ElFace.mk.injEq] at he
      obtain ⟨e1, e2⟩ := he
      refine Or.inl ⟨aff, r.nel, r.nface, _, _, by rw [part_fags_getElem? hs, hl]; rfl,
        mem_completeGroup.2 (Or.inl hfg0), ?_⟩
      rw [← e1, ← e2]
      exact hr
    · obtain ⟨y, k, hy, hk, he⟩ := mem_partBoundary.1 ⟨fg, hfg, fs, hb, hxs⟩
      simp only [ElFace.mk.injEq] at he
      have hb0 : InBoundary m.fags (.partition q) ⟨f.grp, y.el, y.face⟩ := inBoundary_iff.2 ⟨l, hl, hy⟩
      obtain ⟨grp, hg, h1, h2⟩ := ha.boundary _ _ hb0
      exact Or.inr ⟨⟨f.grp, y.el, y.face⟩, ⟨rfl, he.2, (partOf_sameElem hs hv hg h2).2 ⟨k, hk, he.1.symm⟩⟩, hb0⟩
  · rintro (⟨aff, n, nf, l, rows, h1, h2, h3⟩ | ⟨f0, ⟨a1, a2, a3⟩, hb⟩)
    · exact ⟨l, _, _, h1, h2, rfl, List.mem_map.2 ⟨_, h3, rfl⟩⟩
    · obtain ⟨grp, hg, h1, h2⟩ := ha.boundary _ _ hb
      obtain ⟨k, hk, hk'⟩ := (partOf_sameElem hs hv hg h2).1 a3
      obtain ⟨l, hl, hy⟩ := inBoundary_iff.1 hb
      refine inBoundary_iff.2 ⟨_, by rw [part_fags_getElem? hs, a1, hl]; rfl, ?_⟩
      simp only
      rw [(C05_completion f0.grp _).2.2.1 _ _ (Or.inr ⟨by simp, by simp, by simp⟩)]
      obtain ⟨fg, d1, fs, d2, d3⟩ := (mem_partBoundary (m := m)
        (table := globalElemToPart (nelements m.sizes) parts) (self := pidx) (sb := selfGroupBase pm.sizes) (i := f0.grp)
        (l := l) (t := .partition q) (x := ⟨f.el, f.face⟩)).2 ⟨⟨f0.el, f0.face⟩, k, hy, hk, by rw [hk', a2]⟩
      exact ⟨fg, List.mem_append_right _ d1, fs, d2, d3⟩

/-- C117: the part of a part records the elements on the other side of its faces only for the parts of the second
step. -/
theorem C117_forgotten {m : MMesh N P A} (ha : AdjOK m) {parts : Parts} {p : Nat} {pm : MMesh N P A}
    (hids : (parts.map Prod.fst).Nodup) (hsorted : ∀ p ∈ parts, p.2.Pairwise (· < ·))
    (h : getMeshPart m parts p = .ok pm) {aff : A} {f : FaceId} {q n nf : Nat}
    (hq : FacesPart pm.fags aff f q n nf) : q ∈ parts.map Prod.fst := by
  obtain ⟨pidx, sel, required, hs⟩ := getMeshPart_ok h
  obtain ⟨_, _, _, selq, _, _, h1, _⟩ :=
    (C12_inter_part_exact ha hids hsorted h (List.mem_of_getElem? hs.part) aff f q n nf).1 hq
  exact List.mem_map_of_mem h1

/-! ## Examples -/

/-- Four segments in a row. (Example, no code.) -/
def exFour : MMesh Nat Nat Unit where
  vertices := [10, 11, 12, 13, 14]
  groups := [⟨0, [[0], [1]], [[0, 1], [1, 2], [2, 3], [3, 4]], [100, 101, 102, 103]⟩]
  fags := computeFacial () [⟨0, [[0], [1]], [[0, 1], [1, 2], [2, 3], [3, 4]], [100, 101, 102, 103]⟩] [] []

/-- The last three segments. (Example, no code.) -/
def exFourPart : MMesh Nat Nat Unit where
  vertices := [11, 12, 13, 14]
  groups := [⟨0, [[0], [1]], [[0, 1], [1, 2], [2, 3]], [101, 102, 103]⟩]
  fags := [[.interior 0 0 [⟨1, 0, 0, 1⟩, ⟨2, 0, 1, 1⟩, ⟨0, 1, 1, 0⟩, ⟨1, 1, 2, 0⟩] (),
    .interPart 0 (.partition 0) 0 [⟨0, 0, 0, 1⟩] (), .boundary 0 .all [⟨2, 1⟩], .boundary 0 .none [],
    .boundary 0 .reallyAll [⟨2, 1⟩]]]

/-- Of these, the first two, made in two steps: the neighbor of the first one is not recorded. (Example, no code.) -/
def exFourTwo : MMesh Nat Nat Unit where
  vertices := [11, 12, 13]
  groups := [⟨0, [[0], [1]], [[0, 1], [1, 2]], [101, 102]⟩]
  fags := [[.interior 0 0 [⟨1, 0, 0, 1⟩, ⟨0, 1, 1, 0⟩] (), .interPart 0 (.partition 9) 9 [⟨1, 1, 0, 0⟩] (),
    .boundary 0 (.partition 0) [⟨0, 0⟩], .boundary 0 .all [], .boundary 0 .none [], .boundary 0 .reallyAll []]]

/-- And made at once. (Example, no code.) -/
def exFourOnce : MMesh Nat Nat Unit where
  vertices := [11, 12, 13]
  groups := [⟨0, [[0], [1]], [[0, 1], [1, 2]], [101, 102]⟩]
  fags := [[.interior 0 0 [⟨1, 0, 0, 1⟩, ⟨0, 1, 1, 0⟩] (), .interPart 0 (.partition 0) 0 [⟨0, 0, 0, 1⟩] (),
    .interPart 0 (.partition 9) 9 [⟨1, 1, 0, 0⟩] (), .boundary 0 .all [], .boundary 0 .none [],
    .boundary 0 .reallyAll []]]

theorem exFour_steps : getMeshPart exFour [(0, [0]), (1, [1, 2, 3])] 1 = .ok exFourPart ∧
    getMeshPart exFourPart [(8, [0, 1]), (9, [2])] 8 = .ok exFourTwo ∧
    getMeshPart exFour [(0, [0]), (8, [1, 2]), (9, [3])] 8 = .ok exFourOnce := by
  refine ⟨?_, ?_, ?_⟩ <;> decide +kernel

theorem exFour_twoSteps : TwoSteps exFour [(0, [0]), (1, [1, 2, 3])] 1 exFourPart [1, 2, 3]
    [(8, [0, 1]), (9, [2])] 8 exFourTwo [0, 1] [(0, [0]), (8, [1, 2]), (9, [3])] 8 exFourOnce [1, 2] := by
  refine ⟨by decide, by decide, exFour_steps.1, by decide, by decide, by decide, exFour_steps.2.1, by decide, by decide,
    by decide, exFour_steps.2.2, by decide, rfl, ?_⟩
  intro k n h
  match k, h with
  | 0, h => obtain rfl := Option.some.inj h; exact ⟨1, rfl, rfl⟩
  | 1, h => obtain rfl := Option.some.inj h; exact ⟨2, rfl, rfl⟩

/-- C117: the hypotheses of `C117_neighbors` and the following theorems. -/
example : AdjOK exFour ∧ ∀ l ∈ exFour.fags, HasEntry l .none ∧ HasEntry l .all ∧ HasEntry l .reallyAll := by
  refine ⟨adjOK_of_check (by decide +kernel), ?_⟩
  intro l hl
  simp only [hasEntry_iff]
  revert l
  decide +kernel

/-- C117: the hypotheses of `C117_part_ok` and `C117_defined`, with a part that is partitioned again. -/
example : MeshOK exFour ∧ getMeshPart exFour [(0, [0]), (1, [1, 2, 3])] 1 = .ok exFourPart ∧
    ValidParts (nelements exFourPart.sizes) [(8, [0, 1]), (9, [2])] := by
  have hm : MeshOK exFour := by
    constructor
    · simp only [ElGroup.WF]; decide +kernel
    · decide +kernel
  refine ⟨hm, exFour_steps.1, (C117_defined hm exFour_twoSteps.ids exFour_twoSteps.sorted exFour_steps.1
    exFour_twoSteps.ids2 exFour_twoSteps.sorted2 (q := 8) (by decide)).1 ⟨_, exFour_steps.2.1⟩⟩

/-- C117: the other part of the second step, as in `C117_inter_part`. -/
example : ElementsOf [1, 2, 3] [2] [3] ∧ FacesPart exFourTwo.fags () ⟨0, 1, 1⟩ 9 0 0 ∧
    FacesPart exFourOnce.fags () ⟨0, 1, 1⟩ 9 0 0 := by
  refine ⟨⟨rfl, ?_⟩, ⟨_, [⟨1, 1, 0, 0⟩], rfl, by decide, by decide⟩, ⟨_, [⟨1, 1, 0, 0⟩], rfl, by decide, by decide⟩⟩
  intro k n h
  match k, h with
  | 0, h => obtain rfl := Option.some.inj h; exact ⟨3, rfl, rfl⟩

/-- C117: partitioning in two steps is not the same as partitioning at once: the part made at once records which face of
part 0 is on the other side of its first face, the part of the part does not, although it lists the face under the tag of
the boundary towards part 0. -/
theorem C117_forgotten_counterexample : FacesPart exFourOnce.fags () ⟨0, 0, 0⟩ 0 0 1 ∧
    (∀ aff n nf, ¬ FacesPart exFourTwo.fags aff ⟨0, 0, 0⟩ 0 n nf) ∧
    InBoundary exFourTwo.fags (.partition 0) ⟨0, 0, 0⟩ := by
  refine ⟨⟨_, [⟨0, 0, 0, 1⟩], rfl, by decide, by decide⟩, ?_,
    ⟨_, .boundary 0 (.partition 0) [⟨0, 0⟩], _, rfl, by decide, rfl, by decide⟩⟩
  intro aff n nf h
  have := C117_forgotten (C117_part_adjacency (adjOK_of_check (by decide +kernel)) exFour_twoSteps.ids
    exFour_twoSteps.sorted exFour_steps.1).1 (by decide) (by decide) exFour_steps.2.1 h
  revert this
  decide

end Meshmode
