import Verif.Partition.Model
import Verif.Mesh.FacialProps
import Verif.Mesh.Nodal

/-!
# Partitioning: lemmas
-/
namespace Meshmode

variable {N P A : Type}

/-! ## Specification of valid partitions -/

/-- A valid partition of `nel` elements: increasing lists of existing elements, each element in
exactly one part, distinct part identifiers. (Specification or proof vocabulary, no code.) -/
structure ValidParts (nel : Nat) (parts : Parts) : Prop where
  ids : (parts.map Prod.fst).Nodup
  sorted : ∀ p ∈ parts, p.2.Pairwise (· < ·)
  range : ∀ p ∈ parts, ∀ e ∈ p.2, e < nel
  covered : ∀ e < nel, ∃ p ∈ parts, e ∈ p.2
  disjoint : ∀ (i j : Nat) p q e, parts[i]? = some p → parts[j]? = some q → e ∈ p.2 → e ∈ q.2 →
    i = j

/-! ## The element-to-part table -/

theorem foldl_set_getElem? {β : Type} (as : List (Nat × β)) (t : List (Option β)) :
    (as.foldl (fun t a => t.set a.1 (some a.2)) t).length = t.length ∧
    ∀ e : Nat, (e ∉ as.map Prod.fst →
        (as.foldl (fun t a => t.set a.1 (some a.2)) t)[e]? = t[e]?) ∧
      ((as.map Prod.fst).Nodup → ∀ v, (e, v) ∈ as → e < t.length →
        (as.foldl (fun t a => t.set a.1 (some a.2)) t)[e]? = some (some v)) := by
  induction as generalizing t with
  | nil => simp
  | cons a as ih =>
    simp only [List.foldl_cons]
    obtain ⟨h1, h2⟩ := ih (t.set a.1 (some a.2))
    refine ⟨by rw [h1]; simp, fun e => ⟨?_, ?_⟩⟩
    · intro he
      simp only [List.map_cons, List.mem_cons, not_or] at he
      rw [(h2 e).1 he.2, List.getElem?_set_ne (Ne.symm he.1)]
    · intro hn v hv hlt
      simp only [List.map_cons, List.nodup_cons] at hn
      rcases List.mem_cons.1 hv with rfl | hv
      · rw [(h2 e).1 hn.1]
        simp [hlt]
      · exact (h2 e).2 hn.2 v hv (by simpa using hlt)

/-- All assignments to the table, in order. (Specification or proof vocabulary, no code.) -/
def tableAssignments (parts : Parts) : List (Nat × (Nat × Nat)) :=
  parts.zipIdx.flatMap fun p => p.1.2.zipIdx.map fun ek => (ek.1, (p.2, ek.2))

theorem globalElemToPart_eq (nel : Nat) (parts : Parts) :
    globalElemToPart nel parts = (tableAssignments parts).foldl
      (fun t a => t.set a.1 (some a.2)) (List.replicate nel none) := by
  unfold globalElemToPart tableAssignments
  generalize List.replicate nel none = t
  generalize parts.zipIdx = l
  induction l generalizing t with
  | nil => rfl
  | cons p l ih =>
    simp only [List.foldl_cons, List.flatMap_cons, List.foldl_append]
    rw [ih]
    congr 1
    simp [assignPart, List.foldl_map]

theorem mem_tableAssignments {parts : Parts} {e pidx k : Nat} :
    (e, (pidx, k)) ∈ tableAssignments parts ↔
      ∃ p, parts[pidx]? = some p ∧ p.2[k]? = some e := by
  simp only [tableAssignments, List.mem_flatMap, List.mem_map, Prod.mk.injEq, Prod.exists,
    List.mem_zipIdx_iff_getElem?]
  constructor
  · rintro ⟨pid, els, i, h1, e', k', h2, rfl, rfl, rfl⟩
    exact ⟨pid, els, h1, h2⟩
  · rintro ⟨pid, els, h1, h2⟩
    exact ⟨pid, els, pidx, h1, e, k, h2, rfl, rfl, rfl⟩

theorem nodup_of_pairwise_lt {l : List Nat} (h : l.Pairwise (· < ·)) : l.Nodup :=
  h.imp (by intros; omega)

theorem map_fst_tableAssignments (parts : Parts) :
    (tableAssignments parts).map Prod.fst = parts.zipIdx.flatMap fun p => p.1.2 := by
  unfold tableAssignments
  rw [List.map_flatMap]
  congr 1
  funext p
  rw [List.map_map]
  have : (Prod.fst ∘ fun ek : Nat × Nat => (ek.1, (p.2, ek.2))) = Prod.fst := rfl
  rw [this, List.zipIdx_map_fst]

theorem nodup_tableAssignments {nel : Nat} {parts : Parts} (h : ValidParts nel parts) :
    ((tableAssignments parts).map Prod.fst).Nodup := by
  rw [map_fst_tableAssignments, List.nodup_flatMap]
  refine ⟨?_, ?_⟩
  · intro p hp
    exact nodup_of_pairwise_lt (h.sorted p.1 (List.mem_of_getElem?
      (List.mem_zipIdx_iff_getElem?.1 hp)))
  · have hp : parts.zipIdx.Pairwise fun a b => a.2 ≠ b.2 := by
      have : (parts.zipIdx.map Prod.snd).Nodup := by
        rw [List.zipIdx_map_snd]; exact List.nodup_range'
      exact List.pairwise_map.1 this
    refine List.Pairwise.imp_of_mem ?_ hp
    intro a b ha hb hne e he he'
    exact hne (h.disjoint _ _ _ _ e (List.mem_zipIdx_iff_getElem?.1 ha)
      (List.mem_zipIdx_iff_getElem?.1 hb) he he')

/-- The table maps each element to its part and its position in that part's list. -/
theorem partOf_iff {nel : Nat} {parts : Parts} (h : ValidParts nel parts) {e pidx k : Nat} :
    partOf (globalElemToPart nel parts) e = some (pidx, k) ↔
      ∃ p, parts[pidx]? = some p ∧ p.2[k]? = some e := by
  rw [← mem_tableAssignments]
  unfold partOf
  rw [globalElemToPart_eq]
  obtain ⟨h1, h2⟩ := foldl_set_getElem? (tableAssignments parts) (List.replicate nel none)
  rw [List.length_replicate] at h1
  have hn := nodup_tableAssignments h
  constructor
  · intro he
    have hlt : e < nel := by
      by_contra hc
      rw [List.getElem?_eq_none (by rw [h1]; omega)] at he
      simp at he
    by_cases hm : e ∈ (tableAssignments parts).map Prod.fst
    · obtain ⟨⟨e', v⟩, hv, rfl⟩ := List.mem_map.1 hm
      have := (h2 e').2 hn v hv (by simpa using hlt)
      rw [this] at he
      simp only [Option.join_some, Option.some.injEq] at he
      rw [← he]; exact hv
    · rw [(h2 e).1 hm] at he
      simp [hlt] at he
  · intro he
    have hlt : e < nel := by
      obtain ⟨p, hp, hk⟩ := mem_tableAssignments.1 he
      exact h.range p (List.mem_of_getElem? hp) e (List.mem_of_getElem? hk)
    rw [(h2 e).2 hn _ he (by simpa using hlt)]
    rfl

/-! ## Positions in a part -/

/-- The number of selected elements in the groups before group `g`.
(Specification or proof vocabulary, no code.) -/
def startOf (sizes sel : List Nat) (g : Nat) : Nat :=
  sel.countP fun e => decide (e < (sizes.take g).sum)

theorem lt_countP_iff {sel : List Nat} (hs : sel.Pairwise (· < ·)) (b k e : Nat)
    (hk : sel[k]? = some e) : k < sel.countP (fun e => decide (e < b)) ↔ e < b := by
  induction sel generalizing k with
  | nil => simp at hk
  | cons a sel ih =>
    obtain ⟨h1, h2⟩ := List.pairwise_cons.1 hs
    by_cases ha : a < b
    · rw [List.countP_cons_of_pos (by simpa using ha)]
      cases k with
      | zero => simp at hk; subst hk; simp [ha]
      | succ k =>
        simp only [List.getElem?_cons_succ] at hk
        have := ih h2 k hk
        omega
    · have h0 : (a :: sel).countP (fun e => decide (e < b)) = 0 := by
        rw [List.countP_eq_zero]
        intro x hx
        rcases List.mem_cons.1 hx with rfl | hx
        · simpa using ha
        · have := h1 x hx; simp; omega
      rw [h0]
      constructor
      · omega
      · intro he
        exfalso
        rcases List.mem_cons.1 (List.mem_of_getElem? hk) with rfl | hm
        · exact ha he
        · have := h1 e hm; omega

theorem take_sum_mono (l : List Nat) {i j : Nat} (h : i ≤ j) : (l.take i).sum ≤ (l.take j).sum := by
  induction l generalizing i j with
  | nil => simp
  | cons a l ih =>
    cases i with
    | zero => simp
    | succ i =>
      cases j with
      | zero => omega
      | succ j =>
        simp only [List.take_succ_cons, List.sum_cons]
        have := ih (i := i) (j := j) (by omega)
        omega

theorem startOf_mono (sizes sel : List Nat) {i j : Nat} (h : i ≤ j) :
    startOf sizes sel i ≤ startOf sizes sel j := by
  unfold startOf
  apply List.countP_mono_left
  intro x _ hx
  have := take_sum_mono sizes h
  simp only [decide_eq_true_eq] at *
  omega

theorem startOf_zero (sizes sel : List Nat) : startOf sizes sel 0 = 0 := by
  simp [startOf]

theorem startOf_length {sizes sel : List Nat} (h : ∀ e ∈ sel, e < sizes.sum) :
    startOf sizes sel sizes.length = sel.length := by
  unfold startOf
  rw [List.countP_eq_length]
  intro a ha
  simpa using h a ha

theorem length_baseElementNrs (sizes : List Nat) (h : sizes ≠ []) :
    (baseElementNrs sizes).length = sizes.length := by
  unfold baseElementNrs cumsum
  rw [length_cumsumFrom]
  have : sizes.length ≠ 0 := by simpa using h
  simp; omega

theorem groupElemStart_eq {sizes sel : List Nat} (h : ∀ e ∈ sel, e < sizes.sum)
    {g : Nat} (hg : g ≤ sizes.length) (hne : sizes ≠ []) :
    groupElemStart sizes sel g = startOf sizes sel g := by
  unfold groupElemStart
  by_cases hlt : g < sizes.length
  · rw [List.getElem?_append_left (by simpa [length_baseElementNrs sizes hne] using hlt)]
    rw [List.getElem?_map, baseElementNrs_getElem? _ _ hlt]
    simp [npSearchsorted, startOf]
  · have : g = sizes.length := by omega
    subst this
    rw [List.getElem?_append_right (by simp [length_baseElementNrs sizes hne])]
    simp [length_baseElementNrs sizes hne, startOf_length h]

/-- Which group's block a selected position falls into. -/
theorem startOf_block {sizes sel : List Nat} (hs : sel.Pairwise (· < ·)) {g k e : Nat}
    (hk : sel[k]? = some e) :
    (startOf sizes sel g ≤ k ∧ k < startOf sizes sel (g+1)) ↔
      ((sizes.take g).sum ≤ e ∧ e < (sizes.take (g+1)).sum) := by
  unfold startOf
  have h1 := lt_countP_iff hs (sizes.take g).sum k e hk
  have h2 := lt_countP_iff hs (sizes.take (g+1)).sum k e hk
  omega

theorem take_succ_sum {sizes : List Nat} {g n : Nat} (h : sizes[g]? = some n) :
    (sizes.take (g+1)).sum = (sizes.take g).sum + n := by
  obtain ⟨hlt, rfl⟩ := List.getElem?_eq_some_iff.1 h
  rw [List.take_succ_eq_append_getElem hlt, List.sum_append]
  simp

theorem filteredElements_spec {sizes sel : List Nat} (hs : sel.Pairwise (· < ·))
    (h : ∀ e ∈ sel, e < sizes.sum) {g : Nat} (hg : g < sizes.length) :
    (filteredElements sizes sel g).length = startOf sizes sel (g+1) - startOf sizes sel g ∧
    ∀ (j i : Nat), (filteredElements sizes sel g)[j]? = some i →
      sel[startOf sizes sel g + j]? = some ((sizes.take g).sum + i) ∧
      startOf sizes sel g + j < startOf sizes sel (g+1) ∧ i < sizes[g] := by
  have hne : sizes ≠ [] := by rintro rfl; simp at hg
  have hend : startOf sizes sel (g+1) ≤ sel.length := by
    unfold startOf; exact List.countP_le_length
  unfold filteredElements
  simp only [groupElemStart_eq h (Nat.le_of_lt hg) hne, groupElemStart_eq h (show g + 1 ≤ sizes.length from hg) hne,
    baseElementNrs_getElem? _ _ hg, Option.getD_some]
  refine ⟨by simp; omega, fun j i hji => ?_⟩
  rw [List.getElem?_map, Option.map_eq_some_iff] at hji
  obtain ⟨e, he, rfl⟩ := hji
  rw [List.getElem?_take] at he
  split at he
  · rename_i hj
    rw [List.getElem?_drop] at he
    have hblock := (startOf_block (sizes := sizes) (g := g) hs he).1 ⟨by omega, by omega⟩
    rw [take_succ_sum (List.getElem?_eq_getElem hg)] at hblock
    refine ⟨?_, by omega, by omega⟩
    rw [he]; congr 1; omega
  · simp at he

theorem sum_take_telescope (f : Nat → Nat) (hmono : ∀ i, f i ≤ f (i+1)) (h0 : f 0 = 0)
    {l : List Nat} (hl : ∀ (g n : Nat), l[g]? = some n → n = f (g+1) - f g) {g : Nat}
    (hg : g ≤ l.length) : (l.take g).sum = f g := by
  induction g with
  | zero => simp [h0]
  | succ g ih =>
    have hlt : g < l.length := by omega
    rw [List.take_succ_eq_append_getElem hlt]
    simp only [List.sum_append, List.sum_cons, List.sum_nil, Nat.add_zero]
    rw [ih (by omega), hl g _ (List.getElem?_eq_getElem hlt)]
    have := hmono g
    omega

/-! ## The new groups -/

theorem selectRows_getElem? {α : Type} {l r : List α} {idx : List Nat}
    (h : selectRows l idx = some r) : r.length = idx.length ∧
      ∀ (j i : Nat), idx[j]? = some i → ∃ a, r[j]? = some a ∧ l[i]? = some a := by
  exact mapM_getElem?_some h

theorem selectRows_some {α : Type} {l : List α} {idx : List Nat} (h : ∀ i ∈ idx, i < l.length) :
    ∃ r, selectRows l idx = some r := by
  apply mapM_isSome_of
  intro i hi
  exact ⟨_, List.getElem?_eq_getElem (h i hi)⟩

/-- Everything needed about the filtered groups. (Specification or proof vocabulary, no code.) -/
structure FilterSpec (m : MMesh N P A) (sel : List Nat) (ng : List (ElGroup N))
    (required : List Nat) : Prop where
  length : ng.length = m.groups.length
  sizes : ∀ (g n : Nat), (ng.map ElGroup.nelements)[g]? = some n →
    n = startOf m.sizes sel (g+1) - startOf m.sizes sel g
  group : ∀ (g : Nat) grp, m.groups[g]? = some grp → ∃ grp', ng[g]? = some grp' ∧
    grp'.kind = grp.kind ∧ grp'.fvi = grp.fvi ∧
    grp'.vertexIndices.length = grp'.nodes.length ∧
    ∀ (j i : Nat), (filteredElements m.sizes sel g)[j]? = some i →
      (∃ x, grp'.nodes[j]? = some x ∧ grp.nodes[i]? = some x) ∧
      (∃ row, grp.vertexIndices[i]? = some row ∧ (∀ v ∈ row, v ∈ required) ∧
        grp'.vertexIndices[j]? = some (row.map (npSearchsorted required ·)))
  required_sorted : required.Pairwise (· < ·)
  required_used : ∀ v ∈ required, ∃ (g j i : Nat) (grp : ElGroup N) (row : List Nat),
    m.groups[g]? = some grp ∧ (filteredElements m.sizes sel g)[j]? = some i ∧
    grp.vertexIndices[i]? = some row ∧ v ∈ row

theorem sizes_getElem? (m : MMesh N P A) (g : Nat) :
    m.sizes[g]? = m.groups[g]?.map ElGroup.nelements := by
  simp [MMesh.sizes]

theorem mapM_zipIdx_some {α β : Type} {f : α × Nat → Option β} {l : List α} {r : List β}
    (h : l.zipIdx.mapM f = some r) : r.length = l.length ∧
      ∀ (i : Nat) a, l[i]? = some a → ∃ b, r[i]? = some b ∧ f (a, i) = some b := by
  obtain ⟨h1, h2⟩ := mapM_getElem?_some h
  refine ⟨by simpa using h1, fun i a ha => h2 i (a, i) (by simp [List.getElem?_zipIdx, ha])⟩

theorem filterMeshGroups_spec {m : MMesh N P A} {sel : List Nat}
    (hs : sel.Pairwise (· < ·)) (hr : ∀ e ∈ sel, e < m.sizes.sum)
    {ng : List (ElGroup N)} {required : List Nat}
    (h : filterMeshGroups m sel = some (ng, required)) : FilterSpec m sel ng required := by
  unfold filterMeshGroups at h
  obtain ⟨rows, hrows, h⟩ := Option.bind_eq_some_iff.1 h
  obtain ⟨nodes, hnodes, h⟩ := Option.bind_eq_some_iff.1 h
  simp only [Option.pure_def, Option.some.injEq, Prod.mk.injEq] at h
  obtain ⟨hng, hreq⟩ := h
  obtain ⟨r1, r2⟩ := mapM_zipIdx_some hrows
  obtain ⟨n1, n2⟩ := mapM_zipIdx_some hnodes
  have hgrp : ∀ (g : Nat) grp, m.groups[g]? = some grp → ∃ r n, rows[g]? = some r ∧
      nodes[g]? = some n ∧
      selectRows grp.vertexIndices (filteredElements m.sizes sel g) = some r ∧
      selectRows grp.nodes (filteredElements m.sizes sel g) = some n ∧
      ng[g]? = some { grp with
        vertexIndices := r.map fun row => row.map (npSearchsorted required ·), nodes := n } := by
    intro g grp hg
    obtain ⟨r, hr1, hr2⟩ := r2 g grp hg
    obtain ⟨n, hn1, hn2⟩ := n2 g grp hg
    refine ⟨r, n, hr1, hn1, hr2, hn2, ?_⟩
    have hz : (m.groups.zip (rows.zip nodes))[g]? = some (grp, r, n) :=
      List.getElem?_zip_eq_some.2 ⟨hg, List.getElem?_zip_eq_some.2 ⟨hr1, hn1⟩⟩
    rw [← hng, List.getElem?_map, hz, ← hreq]
    rfl
  have hlen : ng.length = m.groups.length := by
    rw [← hng]; simp [r1, n1]
  have hslen : m.sizes.length = m.groups.length := by simp [MMesh.sizes]
  refine ⟨hlen, ?_, ?_, ?_, ?_⟩
  · intro g n hgn
    rw [List.getElem?_map, Option.map_eq_some_iff] at hgn
    obtain ⟨grp', hg', rfl⟩ := hgn
    have hlt : g < m.groups.length := by
      rw [← hlen]; exact (List.getElem?_eq_some_iff.1 hg').1
    obtain ⟨r, n, _, _, _, hn2, hg2⟩ := hgrp g _ (List.getElem?_eq_getElem hlt)
    rw [hg'] at hg2
    cases hg2
    have := (selectRows_getElem? hn2).1
    simp only [ElGroup.nelements]
    rw [this, (filteredElements_spec hs hr (by rw [hslen]; exact hlt)).1]
  · intro g grp hg
    obtain ⟨r, n, hr1, hn1, hr2, hn2, hg2⟩ := hgrp g _ hg
    refine ⟨_, hg2, rfl, rfl, ?_, ?_⟩
    · simp only [List.length_map]
      rw [(selectRows_getElem? hr2).1, (selectRows_getElem? hn2).1]
    · intro j i hji
      obtain ⟨x, hx1, hx2⟩ := (selectRows_getElem? hn2).2 j i hji
      obtain ⟨row, hw1, hw2⟩ := (selectRows_getElem? hr2).2 j i hji
      refine ⟨⟨x, hx1, hx2⟩, row, hw2, ?_, by simp [hw1]⟩
      intro v hv
      rw [← hreq, mem_npUnique, List.mem_flatten]
      refine ⟨row, ?_, hv⟩
      rw [List.mem_flatten]
      exact ⟨r, List.mem_of_getElem? hr1, List.mem_of_getElem? hw1⟩
  · rw [← hreq]; exact pairwise_lt_npUnique _
  · intro v hv
    rw [← hreq, mem_npUnique, List.mem_flatten] at hv
    obtain ⟨row, hrow, hv⟩ := hv
    rw [List.mem_flatten] at hrow
    obtain ⟨r, hr0, hrow⟩ := hrow
    obtain ⟨g, hg⟩ := List.mem_iff_getElem?.1 hr0
    have hlt : g < m.groups.length := by
      rw [← r1]; exact (List.getElem?_eq_some_iff.1 hg).1
    obtain ⟨r', n, hr1, hn1, hr2, hn2, hg2⟩ := hgrp g _ (List.getElem?_eq_getElem hlt)
    rw [hg] at hr1; cases hr1
    obtain ⟨j, hj⟩ := List.mem_iff_getElem?.1 hrow
    obtain ⟨l1, l2⟩ := selectRows_getElem? hr2
    have hjlt : j < (filteredElements m.sizes sel g).length := by
      rw [← l1]; exact (List.getElem?_eq_some_iff.1 hj).1
    have hji := List.getElem?_eq_getElem hjlt
    obtain ⟨row', h1, h2⟩ := l2 j _ hji
    rw [hj] at h1; cases h1
    exact ⟨g, j, _, _, row, List.getElem?_eq_getElem hlt, hji, h2, hv⟩

theorem filterMeshGroups_some {m : MMesh N P A} {sel : List Nat} (hwf : ∀ g ∈ m.groups, g.WF)
    (hs : sel.Pairwise (· < ·)) (hr : ∀ e ∈ sel, e < m.sizes.sum) :
    ∃ r, filterMeshGroups m sel = some r := by
  have hslen : m.sizes.length = m.groups.length := by simp [MMesh.sizes]
  have hsel : ∀ (g : Nat) grp, m.groups[g]? = some grp →
      ∀ i ∈ filteredElements m.sizes sel g, i < grp.nodes.length := by
    intro g grp hg i hi
    obtain ⟨j, hj⟩ := List.mem_iff_getElem?.1 hi
    have hlt : g < m.sizes.length := by
      rw [hslen]; exact (List.getElem?_eq_some_iff.1 hg).1
    have h1 := ((filteredElements_spec hs hr hlt).2 j i hj).2.2
    have h2 : m.sizes[g]? = some grp.nelements := by rw [sizes_getElem?, hg]; rfl
    rw [List.getElem?_eq_getElem hlt] at h2
    simp only [Option.some.injEq] at h2
    rw [h2] at h1; exact h1
  obtain ⟨rows, hrows⟩ : ∃ r, m.groups.zipIdx.mapM (fun gi =>
      selectRows gi.1.vertexIndices (filteredElements m.sizes sel gi.2)) = some r := by
    apply mapM_isSome_of
    rintro ⟨g, i⟩ hgi
    rw [List.mem_zipIdx_iff_getElem?] at hgi
    apply selectRows_some
    intro k hk
    rw [(hwf g (List.mem_of_getElem? hgi)).1]
    exact hsel i g hgi k hk
  obtain ⟨nodes, hnodes⟩ : ∃ r, m.groups.zipIdx.mapM (fun gi =>
      selectRows gi.1.nodes (filteredElements m.sizes sel gi.2)) = some r := by
    apply mapM_isSome_of
    rintro ⟨g, i⟩ hgi
    rw [List.mem_zipIdx_iff_getElem?] at hgi
    exact selectRows_some (hsel i g hgi)
  unfold filterMeshGroups
  simp only [Option.bind_eq_bind, hrows, Option.bind_some, hnodes]
  exact ⟨_, rfl⟩

/-- Position `k` of the selection lies in group `g` of the part, at `k - startOf g`, exactly when
the selected element lies in group `g` of the mesh. -/
theorem isGlobalNr_part {m : MMesh N P A} {sel : List Nat} (hs : sel.Pairwise (· < ·))
    {ng : List (ElGroup N)}
    {required : List Nat} (hf : FilterSpec m sel ng required) {g k e : Nat}
    (hk : sel[k]? = some e) (i' : Nat) :
    IsGlobalNr (ng.map ElGroup.nelements) g i' k ↔
      ((∃ i, IsGlobalNr m.sizes g i e) ∧ k = startOf m.sizes sel g + i') := by
  have hlen : (ng.map ElGroup.nelements).length = m.sizes.length := by
    simp [hf.length, MMesh.sizes]
  have htake : ∀ g ≤ m.sizes.length, ((ng.map ElGroup.nelements).take g).sum
      = startOf m.sizes sel g := by
    intro g hg
    exact sum_take_telescope (startOf m.sizes sel) (fun i => startOf_mono _ _ (by omega))
      (startOf_zero _ _) hf.sizes (by omega)
  have hb := startOf_block (sizes := m.sizes) (g := g) hs hk
  constructor
  · rintro ⟨n, hn, hi, he⟩
    have hlt : g < m.sizes.length := by
      rw [← hlen]; exact (List.getElem?_eq_some_iff.1 hn).1
    have hnn := hf.sizes g n hn
    rw [htake g (by omega)] at he
    refine ⟨?_, he⟩
    have h1 := hb.1 ⟨by omega, by omega⟩
    rw [take_succ_sum (List.getElem?_eq_getElem hlt)] at h1
    exact ⟨e - (m.sizes.take g).sum, _, List.getElem?_eq_getElem hlt, by omega, by omega⟩
  · rintro ⟨⟨i, n, hn, hi, he⟩, hk'⟩
    have hlt : g < m.sizes.length := (List.getElem?_eq_some_iff.1 hn).1
    rw [take_succ_sum hn] at hb
    have h1 := hb.2 ⟨by omega, by omega⟩
    have h2 := List.getElem?_eq_getElem (l := ng.map ElGroup.nelements) (i := g) (by omega)
    have h3 := hf.sizes g _ h2
    exact ⟨_, h2, by omega, by rw [htake g (by omega)]; omega⟩

theorem selfGroupBase_eq {m : MMesh N P A} {sel : List Nat} {ng : List (ElGroup N)}
    {required : List Nat} (hf : FilterSpec m sel ng required) {g : Nat}
    (hg : g < m.groups.length) :
    selfGroupBase (ng.map ElGroup.nelements) g = startOf m.sizes sel g := by
  unfold selfGroupBase
  exact sum_take_telescope (startOf m.sizes sel) (fun i => startOf_mono _ _ (by omega))
    (startOf_zero _ _) hf.sizes (by simp [hf.length]; omega)

end Meshmode
