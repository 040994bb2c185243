import Verif.Np
import Verif.Mesh.Numbering
import Verif.Mesh.Csr
import Mathlib.Tactic.Ring
import Mathlib.Tactic.Linarith
import Mathlib.Data.List.Perm.Basic

/-!
# Connectivity of VTK output (C43)

`vtk_submesh_for_hypercube`, `VTKConnectivity` and `VTKLagrangeConnectivity`
(meshmode/discretization/visualization.py).
-/
namespace Meshmode

/-! ## Model -/

/-- `el_offsets` by dimension, meshmode/discretization/visualization.py:291-304; `none` is a `KeyError`. -/
def vtkOffsets : Nat → Option (List (List Nat))
  | 1 => some [[0], [1]]
  | 2 => some [[0, 0], [1, 0], [1, 1], [0, 1]]
  | 3 => some [[0, 0, 0], [1, 0, 0], [1, 1, 0], [0, 1, 0], [0, 0, 1], [1, 0, 1], [1, 1, 1], [0, 1, 1]]
  | _ => none

/-- `pytools.add_tuples`. Code: meshmode/discretization/visualization.py:306-313. -/
def addTuples (a b : List Nat) : List Nat := List.zipWith (· + ·) a b

/-- `vtk_submesh_for_hypercube`, meshmode/discretization/visualization.py:284-318.  The dictionary of node
numbers is a search for the (only) index of the tuple; a missing tuple skips the origin. -/
def vtkSubmeshHypercube (dim : Nat) (nodeTuples : List (List Nat)) : Option (List (List Nat)) :=
  (vtkOffsets dim).map fun offsets =>
    nodeTuples.filterMap fun origin =>
      offsets.mapM fun offset => nodeTuples.idxOf? (addTuples origin offset)

/-- A group of the visualization discretization, with the result of `connectivity_for_element_group`: the
rows of `el_connectivity` and the cell type.
Code: meshmode/discretization/visualization.py:218-250. -/
structure VisGroup where
  nelements : Nat
  nunit : Nat
  elConn : List (List Nat)
  cellType : Nat
  deriving DecidableEq, Repr

/-- The rows after broadcasting against offsets of shape `(nelements, 1, 1)`: an empty list of cells makes
an array of shape `(0,)`, which broadcasts like one row of length zero.
Code: meshmode/discretization/visualization.py:218-250. -/
def VisGroup.rows (g : VisGroup) : List (List Nat) := if g.elConn = [] then [[]] else g.elConn

/-- `_VisConnectivityGroup`, meshmode/discretization/visualization.py:218-249. -/
structure VisConnGroup where
  conn : List (List (List Nat))
  cellType : Nat
  subBase : Nat
  /-- `vis_connectivity.shape[1]` -/
  nsubPer : Nat
  deriving DecidableEq, Repr

/-- `nsubelements`, meshmode/discretization/visualization.py:236-237. -/
def VisConnGroup.nsub (v : VisConnGroup) : Nat := v.conn.length * v.nsubPer

/-- The loop of `VTKConnectivity.groups`, meshmode/discretization/visualization.py:401-430. -/
def visGroupsFrom (subBase nodeBase : Nat) : List VisGroup → List VisConnGroup
  | [] => []
  | g :: gs =>
    let v : VisConnGroup :=
      { conn := (List.range g.nelements).map fun e => g.rows.map fun r => r.map fun k =>
          (nodeBase + e * g.nunit) + k
        cellType := g.cellType
        subBase := subBase
        nsubPer := g.rows.length }
    v :: visGroupsFrom (subBase + v.nsub) (nodeBase + g.nelements * g.nunit) gs

/-- `VTKConnectivity.groups`, meshmode/discretization/visualization.py:401-430. -/
def visGroups (gs : List VisGroup) : List VisConnGroup := visGroupsFrom 0 0 gs

/-- `VTKConnectivity.cells`, meshmode/discretization/visualization.py:394-397 (also the connectivity of
`VTKLagrangeConnectivity.cells`, 527-530); `none` is the `ValueError` of `hstack` for no groups. -/
def visCells (gs : List VisGroup) : Option (List Nat) :=
  if gs = [] then none else some ((visGroups gs).flatMap fun v => v.conn.flatten.flatten)

/-- `cell_types[a:a+n] = t`. Code: meshmode/discretization/visualization.py:434-447. -/
def assignSlice (l : List Nat) (a n t : Nat) : List Nat :=
  l.take a ++ List.replicate n t ++ l.drop (a + n)

/-- `VTKConnectivity.cell_types`, meshmode/discretization/visualization.py:434-447; `none` is the
failed assertion. -/
def visCellTypes (gs : List VisGroup) : Option (List Nat) :=
  let vs := visGroups gs
  let types := vs.foldl (fun l v => assignSlice l v.subBase v.nsub v.cellType)
    (List.replicate (vs.map VisConnGroup.nsub).sum 255)
  if types.all (fun t => decide (t < 255)) then some types else none

/-- The offsets of `VTKLagrangeConnectivity.cells`, meshmode/discretization/visualization.py:532-543. -/
def lagrangeOffsets (gs : List VisGroup) : List Nat :=
  ((cumsum (0 :: gs.map fun g => g.nelements * g.nunit)).dropLast.zip gs).flatMap fun p =>
    (List.range p.2.nelements).map fun e => p.1 + (p.2.nunit + e * p.2.nunit)

/-! ## Specification -/

/-- The number of nodes in the groups before group `g`.
Code: meshmode/discretization/visualization.py:407-430. -/
def nodeBase (gs : List VisGroup) (g : Nat) : Nat :=
  ((gs.take g).map fun G => G.nelements * G.nunit).sum

/-- The number of nodes. Code: meshmode/discretization/visualization.py:407-430. -/
def totalNodes (gs : List VisGroup) : Nat := (gs.map fun G => G.nelements * G.nunit).sum

/-- The cells that a group should have: for each element, each row of its element connectivity, as numbers
of nodes of that element. (Specification or proof vocabulary, no code.) -/
def groupCells (base : Nat) (G : VisGroup) : List (List Nat) :=
  (List.range G.nelements).flatMap fun e => G.rows.map fun r => r.map fun k => base + e * G.nunit + k

/-- All cells, in order. (Specification or proof vocabulary, no code.) -/
def allCells (gs : List VisGroup) : List (List Nat) :=
  (gs.zipIdx).flatMap fun p => groupCells (nodeBase gs p.2) p.1

/-! ## Lemmas -/

theorem visGroupsFrom_getElem? (gs : List VisGroup) (sb nb g : Nat) :
    (visGroupsFrom sb nb gs)[g]? = gs[g]?.map fun G =>
      { conn := (List.range G.nelements).map fun e => G.rows.map fun r => r.map fun k =>
          (nb + nodeBase gs g + e * G.nunit) + k
        cellType := G.cellType
        subBase := sb + ((gs.take g).map fun G => G.nelements * G.rows.length).sum
        nsubPer := G.rows.length } := by
  induction gs generalizing sb nb g with
  | nil => simp [visGroupsFrom]
  | cons a gs ih =>
    cases g with
    | zero => simp [visGroupsFrom, nodeBase]
    | succ g =>
      simp only [visGroupsFrom, List.getElem?_cons_succ, ih, nodeBase, List.take_succ_cons, List.map_cons,
        List.sum_cons, VisConnGroup.nsub, List.length_map, List.length_range, Nat.add_assoc]

theorem visGroups_flat (gs : List VisGroup) (sb nb : Nat) :
    (visGroupsFrom sb nb gs).flatMap (fun v => v.conn.flatten) =
      (gs.zipIdx).flatMap fun p => groupCells (nb + nodeBase gs p.2) p.1 := by
  induction gs generalizing sb nb with
  | nil => simp [visGroupsFrom]
  | cons a gs ih =>
    rw [visGroupsFrom, List.flatMap_cons, ih, List.zipIdx_cons, List.flatMap_cons]
    congr 1
    rw [Nat.zero_add, List.zipIdx_succ, List.flatMap_map]
    refine List.flatMap_congr fun p hp => ?_
    congr 1
    simp only [nodeBase, List.take_succ_cons, List.map_cons, List.sum_cons]
    omega

theorem flatten_visGroups (gs : List VisGroup) :
    (visGroups gs).flatMap (fun v => v.conn.flatten) = allCells gs := by
  unfold visGroups allCells
  rw [visGroups_flat]
  simp

theorem length_groupCells (base : Nat) (G : VisGroup) :
    (groupCells base G).length = G.nelements * G.rows.length := by
  unfold groupCells
  rw [List.length_flatMap]
  simp

theorem length_zipIdx_groupCells (gs : List VisGroup) (n : Nat) (f : Nat → Nat) :
    ((gs.zipIdx n).flatMap fun p => groupCells (f p.2) p.1).length =
      (gs.map fun G => G.nelements * G.rows.length).sum := by
  induction gs generalizing n with
  | nil => simp
  | cons a gs ih =>
    simp only [List.zipIdx_cons, List.flatMap_cons, List.length_append, length_groupCells, ih,
      List.map_cons, List.sum_cons]

theorem foldl_assign (gs : List VisGroup) (sb nb : Nat) (pre : List Nat) (hpre : pre.length = sb) :
    (visGroupsFrom sb nb gs).foldl (fun l v => assignSlice l v.subBase v.nsub v.cellType)
      (pre ++ List.replicate ((visGroupsFrom sb nb gs).map VisConnGroup.nsub).sum 255) =
      pre ++ gs.flatMap fun G => List.replicate (G.nelements * G.rows.length) G.cellType := by
  induction gs generalizing sb nb pre with
  | nil => simp [visGroupsFrom]
  | cons a gs ih =>
    rw [visGroupsFrom]
    simp only [List.map_cons, List.sum_cons, List.foldl_cons]
    have hns : ({ conn := (List.range a.nelements).map fun e => a.rows.map fun r => r.map fun k =>
          (nb + e * a.nunit) + k
                  cellType := a.cellType, subBase := sb, nsubPer := a.rows.length } :
          VisConnGroup).nsub = a.nelements * a.rows.length := by
      simp [VisConnGroup.nsub]
    rw [hns]
    have hass : ∀ m, assignSlice (pre ++ List.replicate (a.nelements * a.rows.length + m) 255) sb
        (a.nelements * a.rows.length) a.cellType =
        (pre ++ List.replicate (a.nelements * a.rows.length) a.cellType) ++ List.replicate m 255 := by
      intro m
      unfold assignSlice
      subst hpre
      rw [List.take_left, List.drop_append, List.drop_replicate]
      simp
    rw [hass, ih _ _ _ (by simp [hpre]), List.flatMap_cons, List.append_assoc]

/-! ## Properties -/

/-- C43: cell `c` of element `e` of group `g` has as its numbers those of nodes of that element, namely
the ones that its row of the element connectivity says; and there are no other cells. -/
theorem C43_cells {gs : List VisGroup} {g : Nat} {G : VisGroup} (hg : gs[g]? = some G) :
    ∃ v, (visGroups gs)[g]? = some v ∧ v.cellType = G.cellType ∧ v.conn.length = G.nelements ∧
      ∀ e, e < G.nelements → ∃ rows, v.conn[e]? = some rows ∧
        rows = G.rows.map (fun r => r.map fun k => nodeBase gs g + e * G.nunit + k) := by
  refine ⟨_, by rw [visGroups, visGroupsFrom_getElem?, hg]; rfl, rfl, by simp, ?_⟩
  intro e he
  refine ⟨_, by simp only [List.getElem?_map, List.getElem?_range he]; rfl, ?_⟩
  simp

/-- C43: the numbers written are those of the cells, one after the other. -/
theorem C43_flat {gs : List VisGroup} (h : gs ≠ []) :
    visCells gs = some (allCells gs).flatten := by
  unfold visCells
  rw [if_neg h, ← flatten_visGroups]
  congr 1
  generalize visGroups gs = vs
  induction vs with
  | nil => rfl
  | cons v vs ih => simp [ih]

/-- C43: if the element connectivity of every group has valid numbers of nodes of the reference element,
all numbers of a cell are those of nodes of its own element, and valid. -/
theorem C43_own_element {gs : List VisGroup} {g : Nat} {G : VisGroup} (hg : gs[g]? = some G)
    (hv : ∀ r ∈ G.elConn, ∀ k ∈ r, k < G.nunit) {v : VisConnGroup}
    (hvg : (visGroups gs)[g]? = some v) {e : Nat} {rows : List (List Nat)}
    (he : v.conn[e]? = some rows) :
    ∀ r ∈ rows, ∀ n ∈ r, nodeBase gs g + e * G.nunit ≤ n ∧ n < nodeBase gs g + (e + 1) * G.nunit ∧
      n < totalNodes gs := by
  obtain ⟨v', hv', _, hl, hrow⟩ := C43_cells hg
  rw [hvg] at hv'
  cases hv'
  have hel : e < G.nelements := by
    rw [← hl]
    exact (List.getElem?_eq_some_iff.1 he).1
  obtain ⟨rows', h1, h2⟩ := hrow e hel
  rw [he] at h1
  cases h1
  subst h2
  intro r hr n hn
  obtain ⟨r', hr', rfl⟩ := List.mem_map.1 hr
  obtain ⟨k, hk, rfl⟩ := List.mem_map.1 hn
  have hk' : k < G.nunit := by
    unfold VisGroup.rows at hr'
    split at hr'
    · simp only [List.mem_singleton] at hr'
      subst hr'
      simp at hk
    · exact hv r' hr' k hk
  have htot : nodeBase gs g + G.nelements * G.nunit ≤ totalNodes gs := by
    have hlt : g < gs.length := (List.getElem?_eq_some_iff.1 hg).1
    have : nodeBase gs g + G.nelements * G.nunit = nodeBase gs (g + 1) := by
      unfold nodeBase
      rw [List.take_add_one, hg]
      simp
    rw [this]
    unfold nodeBase totalNodes
    conv_rhs => rw [← List.take_append_drop (g + 1) gs]
    rw [List.map_append, List.sum_append]
    omega
  have h3 : (e + 1) * G.nunit ≤ G.nelements * G.nunit := Nat.mul_le_mul_right _ hel
  have h4 : (e + 1) * G.nunit = e * G.nunit + G.nunit := by ring
  refine ⟨by omega, by omega, by omega⟩

/-- C43: no two elements share a node number. -/
theorem C43_disjoint {gs : List VisGroup} {g g' : Nat} {G G' : VisGroup} (hg : gs[g]? = some G)
    (hg' : gs[g']? = some G') {e e' : Nat} (he : e < G.nelements) (he' : e' < G'.nelements) {n : Nat}
    (h : nodeBase gs g + e * G.nunit ≤ n ∧ n < nodeBase gs g + (e + 1) * G.nunit)
    (h' : nodeBase gs g' + e' * G'.nunit ≤ n ∧ n < nodeBase gs g' + (e' + 1) * G'.nunit) :
    g = g' ∧ e = e' := by
  have mono : ∀ {a b : Nat} {A : VisGroup} {k : Nat}, gs[a]? = some A → k < A.nelements → a < b →
      nodeBase gs a + (k + 1) * A.nunit ≤ nodeBase gs b := by
    intro a b A k ha hk hab
    have h1 : nodeBase gs a + A.nelements * A.nunit = nodeBase gs (a + 1) := by
      unfold nodeBase
      rw [List.take_add_one, ha]
      simp
    have h2 : nodeBase gs (a + 1) ≤ nodeBase gs b := by
      obtain ⟨d, rfl⟩ : ∃ d, b = a + 1 + d := ⟨b - (a + 1), by omega⟩
      unfold nodeBase
      rw [List.take_add (i := a + 1) (j := d), List.map_append, List.sum_append]
      omega
    have h3 : (k + 1) * A.nunit ≤ A.nelements * A.nunit := Nat.mul_le_mul_right _ hk
    omega
  rcases Nat.lt_trichotomy g g' with hlt | heq | hlt
  · have := mono hg he hlt
    omega
  · subst heq
    rw [hg] at hg'
    cases hg'
    refine ⟨rfl, ?_⟩
    rcases Nat.lt_trichotomy e e' with hlt | heq | hlt
    · have : (e + 1) * G.nunit ≤ e' * G.nunit := Nat.mul_le_mul_right _ hlt
      omega
    · exact heq
    · have : (e' + 1) * G.nunit ≤ e * G.nunit := Nat.mul_le_mul_right _ hlt
      omega
  · have := mono hg' he' hlt
    omega

/-- C43: there is one cell type per cell, the type of the cell's group. -/
theorem C43_cell_types {gs : List VisGroup} (ht : ∀ G ∈ gs, G.cellType < 255) :
    ∃ types, visCellTypes gs = some types ∧
      types = gs.flatMap (fun G => List.replicate (G.nelements * G.rows.length) G.cellType) ∧
      types.length = (allCells gs).length := by
  have h := foldl_assign gs 0 0 [] rfl
  simp only [List.nil_append] at h
  refine ⟨gs.flatMap (fun G => List.replicate (G.nelements * G.rows.length) G.cellType), ?_, rfl, ?_⟩
  · unfold visCellTypes visGroups
    simp only
    rw [h, if_pos]
    rw [List.all_eq_true]
    intro t hmem
    obtain ⟨G, hG, hr⟩ := List.mem_flatMap.1 hmem
    rw [List.eq_of_mem_replicate hr]
    simpa using ht G hG
  · unfold allCells
    rw [length_zipIdx_groupCells gs 0 (nodeBase gs), List.length_flatMap]
    simp

/-- The cell of Lagrange output is all of the element: one row per group.
(Specification or proof vocabulary, no code.) -/
def IsLagrange (G : VisGroup) : Prop := ∃ perm : List Nat, G.elConn = [perm] ∧ perm.length = G.nunit

theorem zip_dropLast_cumsum (acc : Nat) (gs : List VisGroup) :
    (cumsumFrom acc (0 :: gs.map fun g => g.nelements * g.nunit)).dropLast.zip gs =
      (gs.zipIdx).map fun p => (acc + nodeBase gs p.2, p.1) := by
  apply List.ext_getElem?
  intro i
  by_cases hi : i < gs.length
  · rw [List.getElem?_map, List.getElem?_zipIdx]
    have h1 : (cumsumFrom acc (0 :: gs.map fun g => g.nelements * g.nunit)).dropLast[i]? =
        some (acc + nodeBase gs i) := by
      rw [List.getElem?_dropLast, length_cumsumFrom, if_pos (by simpa using hi), cumsumFrom_getElem?,
        if_pos (by simp; omega)]
      simp [nodeBase, List.map_take]
    have h2 : gs[i]? = some gs[i] := List.getElem?_eq_getElem hi
    rw [h2, List.getElem?_zip_eq_some (z := (acc + nodeBase gs i, gs[i])) |>.2 ⟨h1, h2⟩]
    simp
  · rw [List.getElem?_eq_none, List.getElem?_eq_none]
    · simpa using hi
    · simp [length_cumsumFrom]
      omega

/-- C43: in Lagrange output every element is one cell, and the offsets say where each cell's numbers end: cell
`c` has the numbers from the previous offset (or 0) to its own. -/
theorem C43_lagrange {gs : List VisGroup} (h : ∀ G ∈ gs, IsLagrange G) :
    (allCells gs).length = (gs.map VisGroup.nelements).sum ∧
    lagrangeOffsets gs = cumsum ((allCells gs).map List.length) ∧
    ∀ c, csrRow (0 :: lagrangeOffsets gs) (allCells gs).flatten c = (allCells gs)[c]? := by
  have hrow : ∀ G ∈ gs, ∃ perm : List Nat, G.rows = [perm] ∧ perm.length = G.nunit := by
    intro G hG
    obtain ⟨perm, h1, h2⟩ := h G hG
    exact ⟨perm, by simp [VisGroup.rows, h1], h2⟩
  have hoff : lagrangeOffsets gs = cumsum ((allCells gs).map List.length) := by
    unfold lagrangeOffsets cumsum
    rw [zip_dropLast_cumsum, List.flatMap_map]
    have key : ∀ (l : List VisGroup) (acc n : Nat) (f : Nat → Nat),
        (∀ G ∈ l, ∃ perm : List Nat, G.rows = [perm] ∧ perm.length = G.nunit) →
        (∀ i, i < l.length → f (n + i) = acc + nodeBase l i) →
        ((l.zipIdx n).flatMap fun p => (List.range p.1.nelements).map fun e =>
          f p.2 + (p.1.nunit + e * p.1.nunit)) =
        cumsumFrom acc (((l.zipIdx n).flatMap fun p => groupCells (f p.2) p.1).map List.length) := by
      intro l
      induction l with
      | nil => intros; rfl
      | cons a l ih =>
        intro acc n f hp hf
        obtain ⟨perm, hr, hl⟩ := hp a (by simp)
        have hcells : ∀ base, (groupCells base a).map List.length =
            List.replicate a.nelements a.nunit := by
          intro base
          unfold groupCells
          rw [hr, List.map_flatMap]
          simp only [List.map_cons, List.map_nil, List.length_map, hl]
          refine List.eq_replicate_iff.2 ⟨by simp, ?_⟩
          intro b hb
          obtain ⟨_, _, hb⟩ := List.mem_flatMap.1 hb
          simpa using hb
        have hcs : ∀ (m acc : Nat) (rest : List Nat), cumsumFrom acc (List.replicate m a.nunit ++ rest) =
            ((List.range m).map fun e => acc + (a.nunit + e * a.nunit)) ++
              cumsumFrom (acc + m * a.nunit) rest := by
          intro m
          induction m with
          | zero => simp
          | succ m ihm =>
            intro acc rest
            rw [List.replicate_succ, List.cons_append, cumsumFrom, ihm, List.range_succ_eq_map,
              List.map_cons, List.map_map, List.cons_append]
            rw [show acc + a.nunit + m * a.nunit = acc + (m + 1) * a.nunit by ring,
              show acc + (a.nunit + 0 * a.nunit) = acc + a.nunit by ring]
            congr 2
            refine List.map_congr_left fun e _ => ?_
            simp only [Function.comp, Nat.succ_eq_add_one]
            ring
        rw [List.zipIdx_cons, List.flatMap_cons, List.flatMap_cons, List.map_append, hcells, hcs]
        have h0 : f n = acc := by
          have := hf 0 (by simp)
          simpa [nodeBase] using this
        rw [h0]
        congr 1
        refine ih _ _ f (fun G hG => hp G (by simp [hG])) ?_
        intro i hi
        have := hf (i + 1) (by simpa using hi)
        rw [show n + 1 + i = n + (i + 1) by omega, this]
        simp only [nodeBase, List.take_succ_cons, List.map_cons, List.sum_cons]
        omega
    have := key gs 0 0 (nodeBase gs) hrow (by simp)
    unfold allCells
    rw [← this]
    simp
  refine ⟨?_, hoff, ?_⟩
  · unfold allCells
    rw [length_zipIdx_groupCells gs 0 (nodeBase gs)]
    congr 1
    refine List.map_congr_left fun G hG => ?_
    obtain ⟨perm, hr, _⟩ := hrow G hG
    simp [hr]
  · intro c
    have : (0 :: lagrangeOffsets gs) = cumsum (0 :: (allCells gs).map List.length) := by
      rw [hoff]
      simp [cumsum, cumsumFrom]
    rw [this]
    exact csrRow_of_rows _ c

/-! ## Cells of hypercubes -/

theorem vtkOffsets_facts {dim : Nat} {offsets : List (List Nat)} (h : vtkOffsets dim = some offsets) :
    (∀ o ∈ offsets, o.length = dim ∧ ∀ x ∈ o, x ≤ 1) ∧ List.replicate dim 1 ∈ offsets ∧
    offsets.Nodup ∧ offsets.length = 2 ^ dim := by
  match dim, h with
  | 1, h => cases h; decide
  | 2, h => cases h; decide
  | 3, h => cases h; decide

theorem mapM_none_of_mem {α β : Type} {f : α → Option β} {l : List α} {a : α} (ha : a ∈ l)
    (h : f a = none) : l.mapM f = none := by
  induction l with
  | nil => simp at ha
  | cons b l ih =>
    rw [List.mapM_cons]
    rcases List.mem_cons.1 ha with rfl | ha
    · rw [h]; rfl
    · rw [ih ha]
      cases f b <;> rfl

theorem idxOf?_eq_some_idxOf {l : List (List Nat)} {a : List Nat} (h : a ∈ l) :
    l.idxOf? a = some (l.idxOf a) := by
  induction l with
  | nil => simp at h
  | cons b l ih =>
    rw [List.idxOf?_cons, List.idxOf_cons]
    by_cases hb : b = a
    · simp [hb]
    · have hb' : (b == a) = false := by simpa using hb
      rcases List.mem_cons.1 h with h | h
      · exact absurd h.symm hb
      · simp [hb', ih h]

/-- C43: for all tuples of numbers up to `n` (in any order), the cells are those of the grid: one for each
tuple of numbers below `n`, whose corners are the nodes at that tuple plus each of the offsets; all corner
numbers are valid and distinct, and there are `2^dim`. -/
theorem C43_hypercube {dim n : Nat} {offsets T : List (List Nat)} (hd : vtkOffsets dim = some offsets)
    (hT : ∀ t, t ∈ T ↔ t.length = dim ∧ ∀ x ∈ t, x ≤ n) :
    vtkSubmeshHypercube dim T =
      some ((T.filter fun o => o.all fun x => decide (x < n)).map fun o =>
        offsets.map fun off => T.idxOf (addTuples o off)) ∧
    (∀ o ∈ T, (∀ x ∈ o, x < n) → ∀ off ∈ offsets,
      T[T.idxOf (addTuples o off)]? = some (addTuples o off)) ∧
    (∀ o ∈ T, (∀ x ∈ o, x < n) → (offsets.map fun off => T.idxOf (addTuples o off)).Nodup) ∧
    offsets.length = 2 ^ dim := by
  obtain ⟨hlen, hone, hnd, h2⟩ := vtkOffsets_facts hd
  have hin : ∀ o ∈ T, (∀ x ∈ o, x < n) → ∀ off ∈ offsets, addTuples o off ∈ T := by
    intro o ho hlt off hoff
    obtain ⟨h1, h3⟩ := hlen off hoff
    have h4 := (hT o).1 ho
    rw [hT]
    refine ⟨by simp [addTuples, h1, h4.1], ?_⟩
    intro x hx
    obtain ⟨i, hi⟩ := List.mem_iff_getElem?.1 hx
    obtain ⟨a, b, ha, hb, rfl⟩ := List.getElem?_zipWith_eq_some.1 hi
    have := hlt a (List.mem_of_getElem? ha)
    have := h3 b (List.mem_of_getElem? hb)
    omega
  have hget : ∀ o ∈ T, (∀ x ∈ o, x < n) → ∀ off ∈ offsets,
      T[T.idxOf (addTuples o off)]? = some (addTuples o off) := by
    intro o ho hlt off hoff
    have := hin o ho hlt off hoff
    rw [List.getElem?_eq_getElem (List.idxOf_lt_length_iff.2 this)]
    simp
  refine ⟨?_, hget, ?_, h2⟩
  · unfold vtkSubmeshHypercube
    rw [hd, Option.map_some]
    congr 1
    rw [← List.filterMap_eq_map, List.filterMap_filter]
    refine List.filterMap_congr fun o ho => ?_
    by_cases hlt : ∀ x ∈ o, x < n
    · rw [if_pos (by simpa using hlt)]
      exact mapM_some_eq_map fun off hoff => idxOf?_eq_some_idxOf (hin o ho hlt off hoff)
    · rw [if_neg (by simpa using hlt)]
      refine mapM_none_of_mem hone ?_
      rw [List.idxOf?_eq_none_iff, hT, not_and]
      intro _ hle
      apply hlt
      intro x hx
      obtain ⟨i, hi⟩ := List.mem_iff_getElem?.1 hx
      have h4 := ((hT o).1 ho).1
      have hil : i < dim := by
        rw [← h4]
        exact (List.getElem?_eq_some_iff.1 hi).1
      have : x + 1 ∈ addTuples o (List.replicate dim 1) := by
        refine List.mem_of_getElem? (i := i) ?_
        unfold addTuples
        rw [List.getElem?_zipWith_eq_some]
        exact ⟨x, 1, hi, by rw [List.getElem?_replicate, if_pos hil], rfl⟩
      have := hle _ this
      omega
  · intro o ho hlt
    refine (List.nodup_map_iff_inj_on hnd).2 ?_
    intro a ha b hb hab
    have h1 := hget o ho hlt a ha
    have h3 := hget o ho hlt b hb
    rw [hab, h3] at h1
    simp only [Option.some.injEq] at h1
    have hl := ((hT o).1 ho).1
    apply List.ext_getElem?
    intro i
    by_cases hi : i < dim
    · have h5 : (addTuples o a)[i]? = (addTuples o b)[i]? := by rw [h1]
      have hoi : i < o.length := by omega
      have hai : i < a.length := by rw [(hlen a ha).1]; exact hi
      have hbi : i < b.length := by rw [(hlen b hb).1]; exact hi
      simp only [addTuples, List.getElem?_zipWith, List.getElem?_eq_getElem hoi,
        List.getElem?_eq_getElem hai, List.getElem?_eq_getElem hbi] at h5 ⊢
      simp only [Option.some.injEq] at h5 ⊢
      omega
    · rw [List.getElem?_eq_none (by rw [(hlen a ha).1]; omega),
        List.getElem?_eq_none (by rw [(hlen b hb).1]; omega)]

/-- C43: the corners of a cell go round: successive ones (cyclically, for the bottom and the top of a
hexahedron) differ in one coordinate, and the top is above the bottom. -/
theorem C43_hypercube_order :
    vtkOffsets 2 = some [[0, 0], [1, 0], [1, 1], [0, 1]] ∧
    vtkOffsets 3 = (vtkOffsets 2).map (fun q => q.map (· ++ [0]) ++ q.map (· ++ [1])) := by
  decide

/-- Output of order zero: one cell type for each element, but no cells. -/
theorem C43_order_zero_counterexample :
    vtkSubmeshHypercube 2 [[0, 0]] = some [] ∧
    visCells [⟨3, 1, [], 9⟩] = some [] ∧
    visCellTypes [⟨3, 1, [], 9⟩] = some [9, 9, 9] := by
  decide

/-- A square of order 2 next to two triangles: the cells. -/
example : vtkSubmeshHypercube 2 [[0, 0], [1, 0], [2, 0], [0, 1], [1, 1], [2, 1], [0, 2], [1, 2], [2, 2]] =
    some [[0, 1, 4, 3], [1, 2, 5, 4], [3, 4, 7, 6], [4, 5, 8, 7]] ∧
    visCells [⟨2, 4, [[0, 1, 3, 2]], 9⟩, ⟨2, 3, [[0, 1, 2]], 5⟩] =
      some [0, 1, 3, 2, 4, 5, 7, 6, 8, 9, 10, 11, 12, 13] ∧
    visCellTypes [⟨2, 4, [[0, 1, 3, 2]], 9⟩, ⟨2, 3, [[0, 1, 2]], 5⟩] = some [9, 9, 5, 5] ∧
    lagrangeOffsets [⟨2, 4, [[0, 1, 3, 2]], 9⟩, ⟨2, 3, [[0, 1, 2]], 5⟩] = [4, 8, 11, 14] := by
  decide +kernel

end Meshmode
