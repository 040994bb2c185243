import Verif.Mesh.Csr
import Verif.Discr.Factory
import Verif.Vis.Connectivity
import Verif.Vis.Write

/-!
# Writing meshes to VTK, TikZ and STL (C94)

`write_vertex_vtk_file` (meshmode/mesh/visualization.py:216-303), `mesh_to_tikz` (310-342), `write_stl_file`
(377-413) and `write_nodal_adjacency_vtk_file` (meshmode/discretization/visualization.py:1453-1501).  Modelled is
what is handed to the writer of the file format; positions are elements of a vector space over the rationals.
-/
namespace Meshmode

/-! ## Model -/

/-- Exceptions. Code: meshmode/mesh/visualization.py:237-256, 277-281, 300, 386-395, 411. -/
inductive ExportErr where
  | keyError | notImplemented | typeError | valueError | indexError | assertion | fileExists
  deriving DecidableEq, Repr

/-- An element group: class, dimension, `vertex_indices`. Code: meshmode/mesh/__init__.py:199-330. -/
structure XGroup where
  type : MGroupClass
  dim : Nat
  rows : List (List Nat)
  deriving DecidableEq, Repr

/-- The numbers of elements. Code: meshmode/mesh/__init__.py:1368-1379. -/
def xSizes (gs : List XGroup) : List Nat := gs.map fun g => g.rows.length

/-- `vtk_cell_type`, meshmode/mesh/visualization.py:238-252, with the numbers of the VTK file format. -/
def XGroup.cellType (g : XGroup) : Except ExportErr Nat :=
  match g.type with
  | .simplex =>
    if g.dim = 1 then .ok 3 else if g.dim = 2 then .ok 5 else if g.dim = 3 then .ok 10 else .error .keyError
  | .tensor =>
    if g.dim = 1 then .ok 3 else if g.dim = 2 then .ok 9 else if g.dim = 3 then .ok 12 else .error .keyError
  | .user _ => .error .notImplemented

/-- `ary[a:a + len(vals)] = vals` within the array. Code: meshmode/mesh/visualization.py:254, 277-279. -/
def putAt {α : Type} (l : List α) (a : Nat) (vals : List α) : List α :=
  l.take a ++ vals ++ l.drop (a + vals.length)

/-- `cell_types`, meshmode/mesh/visualization.py:235-256.  Without groups, `base_element_nrs` has one entry and
the strict `zip` raises. -/
def vertexCellTypes (gs : List XGroup) : Except ExportErr (List Nat) :=
  if gs = [] then .error .valueError
  else do
    let types ← ((baseElementNrs (xSizes gs)).zip gs).foldlM (fun l p => do
      let t ← p.2.cellType
      pure (putAt l p.1 (List.replicate p.2.rows.length t))) (List.replicate (nelements (xSizes gs)) 255)
    if types.all (fun t => t != 255) then .ok types else .error .assertion

/-- `tensor_order`, meshmode/mesh/visualization.py:267-271; `none` is a `KeyError`. -/
def tensorOrder : Nat → Option (List Nat)
  | 1 => some [0, 1]
  | 2 => some [0, 1, 3, 2]
  | 3 => some [0, 1, 3, 2, 4, 5, 7, 6]
  | _ => none

/-- What is assigned for one group, meshmode/mesh/visualization.py:276-281. -/
def XGroup.cells (g : XGroup) : Except ExportErr (List Nat) :=
  match g.type with
  | .simplex => .ok g.rows.flatten
  | .tensor =>
    match tensorOrder g.dim with
    | none => .error .keyError
    | some o =>
      match g.rows.mapM fun r => o.mapM fun k => r[k]? with
      | none => .error .indexError
      | some rs => .ok rs.flatten
  | .user _ => .error .typeError

/-- The loop filling `cells`, meshmode/mesh/visualization.py:273-283 (for groups whose elements have the number of
vertices of their shape, so that sizes match). -/
def vertexCellsFrom : List XGroup → Nat → List Nat → Except ExportErr (List Nat)
  | [], _, l => .ok l
  | g :: gs, base, l => do
    let c ← g.cells
    vertexCellsFrom gs (base + g.rows.flatten.length) (putAt l base c)

/-- Writing to a file that may exist. Code: meshmode/mesh/visualization.py:295-303, 406-413. -/
def saveAs {α : Type} (there overwrite : Bool) (a : α) : Except ExportErr α :=
  if there && !overwrite then .error .fileExists else .ok a

/-- `write_vertex_vtk_file`, meshmode/mesh/visualization.py:216-303: the cell types and cells of the grid; `junk`
are the contents of the new array `cells`. -/
def writeVertexVtk (junk : List Nat) (gs : List XGroup) (there overwrite : Bool) :
    Except ExportErr (List Nat × List Nat) := do
  let types ← vertexCellTypes gs
  let cells ← vertexCellsFrom gs 0 junk
  saveAs there overwrite (types, cells)

/-- Names of coordinates: `cent{n}`, `v{n}-{k}`. Code: meshmode/mesh/visualization.py:327, 331. -/
inductive TikzName where
  | cent (n : Nat)
  | vert (n k : Nat)
  deriving DecidableEq, Repr

/-- The TikZ source: two counts, named coordinates, closed paths. Code: meshmode/mesh/visualization.py:311-340. -/
structure Tikz (V : Type) where
  nelements : Nat
  nvertices : Nat
  coords : List (TikzName × V)
  draws : List (List TikzName)

section
variable {V : Type} [AddCommGroup V] [Module ℚ V]

/-- One element, meshmode/mesh/visualization.py:321-335; `n` is `el_nr`.  (Coordinates are rounded to five
decimals in the text; this is not modelled.) -/
def tikzElement (vertices : List V) (n : Nat) (el : List Nat) :
    Except ExportErr (List (TikzName × V) × List TikzName) :=
  match el.mapM fun v => vertices[v]? with
  | none => .error .indexError
  | some pts => .ok ((.cent n, centroid pts) :: pts.zipIdx.map (fun p => (.vert n (p.2 + 1), p.1)),
      (List.range pts.length).map fun k => .vert n (k + 1))

/-- `mesh_to_tikz`, meshmode/mesh/visualization.py:310-342. -/
def meshToTikz (vertices : List V) (gs : List XGroup) : Except ExportErr (Tikz V) :=
  if gs = [] then .error .valueError
  else do
    let els ← (((baseElementNrs (xSizes gs)).zip gs).flatMap fun p =>
      p.2.rows.zipIdx.map fun q => (p.1 + q.2 + 1, q.1)).mapM fun e => tikzElement vertices e.1 e.2
    pure ⟨Meshmode.nelements (xSizes gs), vertices.length, els.flatMap Prod.fst, els.map Prod.snd⟩

/-- `write_stl_file`, meshmode/mesh/visualization.py:377-413: the corners of the triangles; `ambient` is the
ambient dimension. -/
def writeStl (ambient : Nat) (vertices : List V) (gs : List XGroup) (there overwrite : Bool) :
    Except ExportErr (List (List V)) :=
  match gs with
  | [g] =>
    if ambient ≠ 3 then .error .valueError
    else if g.type ≠ .simplex ∨ g.dim ≠ 2 then .error .valueError
    else
      match g.rows.mapM fun r => r.mapM fun v => vertices[v]? with
      | none => .error .indexError
      | some faces =>
        match faces.mapM fun f => (List.range 3).mapM fun k => f[k]? with
        | none => .error .indexError
        | some t => saveAs there overwrite t
  | _ => .error .notImplemented

/-- `ary[a:b] = v`, with the slice cut off at the end. Code: meshmode/discretization/visualization.py:1480. -/
def setSlice (l : List Nat) (a b v : Nat) : List Nat :=
  l.zipIdx.map fun p => if a ≤ p.2 ∧ p.2 < b then v else p.1

/-- `centroids`, meshmode/discretization/visualization.py:1464-1471; `junk` are the contents of the new array. -/
def adjCentroids (junk : List V) (vertices : List V) (gs : List XGroup) : Except ExportErr (List V) :=
  if gs = [] then .error .valueError
  else ((baseElementNrs (xSizes gs)).zip gs).foldlM (fun l p =>
    match p.2.rows.mapM fun r => r.mapM fun v => vertices[v]? with
    | none => .error .indexError
    | some els => .ok (putAt l p.1 (els.map centroid))) junk

/-- The first column of `connections`, meshmode/discretization/visualization.py:1475-1480. -/
def adjSources (starts : List Nat) (nel : Nat) (junk : List Nat) : Except ExportErr (List Nat) :=
  (List.range nel).foldlM (fun l i =>
    match starts[i]?, starts[i + 1]? with
    | some a, some b => .ok (setSlice l a b i)
    | _, _ => .error .indexError) junk

/-- `write_nodal_adjacency_vtk_file`, meshmode/discretization/visualization.py:1453-1501: the points and the lines
between them; `junk` and `junk'` are the contents of the two new arrays. -/
def writeNodalAdjacency (junk : List V) (junk' : List Nat) (vertices : List V) (gs : List XGroup)
    (starts neighbors : List Nat) (there overwrite : Bool) : Except ExportErr (List V × List (Nat × Nat)) := do
  let centroids ← adjCentroids junk vertices gs
  let col ← adjSources starts (nelements (xSizes gs)) junk'
  saveAs there overwrite (centroids, col.zip neighbors)

end

/-! ## Specification -/

/-- The number of corners of an element. (Specification or proof vocabulary, no code.) -/
def XGroup.corners (g : XGroup) : Nat :=
  match g.type with
  | .simplex => g.dim + 1
  | .tensor => 2 ^ g.dim
  | .user _ => 0

/-- Each element has the number of corners of its shape. (Specification or proof vocabulary, no code.) -/
def XGroup.Shaped (g : XGroup) : Prop := ∀ r ∈ g.rows, r.length = g.corners

/-- Lines, triangles, quadrilaterals, tetrahedra and hexahedra. (Specification or proof vocabulary, no code.) -/
def XGroup.Writable (g : XGroup) : Prop := (g.type = .simplex ∨ g.type = .tensor) ∧ 1 ≤ g.dim ∧ g.dim ≤ 3

/-- The VTK file format: dimension and number of corners of the cells of a type.
(Specification or proof vocabulary, no code.) -/
def vtkReads : Nat → Option (Nat × Nat)
  | 3 => some (1, 2)
  | 5 => some (2, 3)
  | 9 => some (2, 4)
  | 10 => some (3, 4)
  | 12 => some (3, 8)
  | _ => none

/-- How a file is read: the types say how many corners to take for each cell, and nothing must be left.
(Specification or proof vocabulary, no code.) -/
def readCells : List Nat → List Nat → Option (List (Nat × List Nat))
  | [], [] => some []
  | [], _ :: _ => none
  | t :: ts, cells =>
    match vtkReads t with
    | none => none
    | some (d, n) =>
      if n ≤ cells.length then (readCells ts (cells.drop n)).map ((d, cells.take n) :: ·) else none

/-- The number of the corner of a tensor product element with given reference coordinates (0 or 1): the first axis
varies fastest. (Specification or proof vocabulary, no code.) -/
def cornerNr : List Nat → Nat
  | [] => 0
  | b :: bs => b + 2 * cornerNr bs

/-- The corners of an element in the order of VTK, which goes around quadrilaterals.
(Specification or proof vocabulary, no code.) -/
def XGroup.vtkCell (g : XGroup) (r : List Nat) : List Nat :=
  match g.type with
  | .tensor => ((vtkOffsets g.dim).getD []).map fun o => r.getD (cornerNr o) 0
  | _ => r

/-- Edges of the reference element: any two corners of a simplex, corners of a tensor product element whose
coordinates differ on exactly one axis. (Specification or proof vocabulary, no code.) -/
def XGroup.IsEdge (g : XGroup) (a b : Nat) : Prop :=
  match g.type with
  | .tensor => ∃ k < g.dim, ∀ j < g.dim, (a.testBit j ≠ b.testBit j ↔ j = k)
  | _ => a ≠ b

/-- The closed path has a segment from `x` to `y`. (Specification or proof vocabulary, no code.) -/
def Segment (path : List TikzName) (x y : TikzName) : Prop :=
  ∃ i : Nat, path[i]? = some x ∧ path[(i + 1) % path.length]? = some y

/-! ## Lemmas -/

/-- The pairs `(start, block)` lie one after the other, from `base`. (Specification or proof vocabulary, no code.) -/
def Consecutive {α : Type} : Nat → List (Nat × List α) → Prop
  | _, [] => True
  | base, p :: ps => p.1 = base ∧ Consecutive (base + p.2.length) ps

theorem putAt_consecutive {α : Type} {base : Nat} {ps : List (Nat × List α)} (h : Consecutive base ps) {l : List α}
    (hl : l.length = base + (ps.flatMap Prod.snd).length) :
    ps.foldl (fun l p => putAt l p.1 p.2) l = l.take base ++ ps.flatMap Prod.snd := by
  induction ps generalizing base l with
  | nil => simp at hl; simp [← hl]
  | cons p ps ih =>
    obtain ⟨h1, h2⟩ := h
    simp only [List.flatMap_cons, List.length_append] at hl
    have hp : (putAt l p.1 p.2).length = base + p.2.length + (ps.flatMap Prod.snd).length := by
      simp only [putAt, List.length_append, List.length_take, List.length_drop]; omega
    rw [List.foldl_cons, ih h2 hp, List.flatMap_cons, ← List.append_assoc]
    congr 1
    have h3 : (l.take p.1 ++ p.2).length = base + p.2.length := by
      simp only [List.length_append, List.length_take]; omega
    rw [putAt, ← h3, List.take_left, h1]

theorem consecutive_base {α : Type} (f : XGroup → List α) (hf : ∀ g, (f g).length = g.rows.length) :
    ∀ (gs : List XGroup) (acc : Nat),
      Consecutive acc (((cumsumFrom acc (0 :: (xSizes gs).dropLast)).zip gs).map fun p => (p.1, f p.2))
  | [], _ => by simp [Consecutive]
  | [g], acc => by simp [xSizes, cumsumFrom, Consecutive]
  | g :: g' :: gs, acc => by
    have ih := consecutive_base f hf (g' :: gs) (acc + g.rows.length)
    simp only [xSizes, List.map_cons, List.dropLast_cons_cons, cumsumFrom, List.zip_cons_cons, Nat.add_zero,
      Consecutive, true_and, hf] at ih ⊢
    exact ih

theorem foldlM_ok {α β ε : Type} {f : β → α → Except ε β} {g : β → α → β} :
    ∀ {l : List α} {b : β}, (∀ a ∈ l, ∀ b, f b a = .ok (g b a)) → l.foldlM f b = .ok (l.foldl g b)
  | [], b, _ => rfl
  | a :: l, b, h => by
    rw [List.foldlM_cons, h a (by simp), List.foldl_cons]
    exact foldlM_ok fun x hx => h x (List.mem_cons_of_mem _ hx)

theorem foldlM_ok_mem {α β ε : Type} {f : β → α → Except ε β} :
    ∀ {l : List α} {b c : β}, l.foldlM f b = .ok c → ∀ a ∈ l, ∃ b' b'', f b' a = .ok b''
  | [], _, _, _ => by simp
  | a :: l, b, c, h => by
    rw [List.foldlM_cons] at h
    intro x hx
    cases hb : f b a with
    | error e => rw [hb] at h; cases h
    | ok b' =>
      rw [hb] at h
      rcases List.mem_cons.1 hx with rfl | hx
      · exact ⟨b, b', hb⟩
      · exact foldlM_ok_mem (show l.foldlM f b' = .ok c from h) x hx

theorem length_base (gs : List XGroup) (h : gs ≠ []) : (baseElementNrs (xSizes gs)).length = gs.length := by
  have := List.length_pos_iff.2 h
  simp only [baseElementNrs, cumsum, length_cumsumFrom, List.length_cons, List.length_dropLast, xSizes,
    List.length_map]
  omega

theorem XGroup.cellType_ok {g : XGroup} {t : Nat} (h : g.cellType = .ok t) :
    g.Writable ∧ vtkReads t = some (g.dim, g.corners) ∧ t ≠ 255 := by
  unfold XGroup.cellType at h
  unfold XGroup.Writable XGroup.corners
  cases ht : g.type <;> rw [ht] at h <;> simp only at h
  · by_cases h1 : g.dim = 1
    · rw [if_pos h1] at h; cases h; simp [h1, vtkReads]
    · rw [if_neg h1] at h
      by_cases h2 : g.dim = 2
      · rw [if_pos h2] at h; cases h; simp [h2, vtkReads]
      · rw [if_neg h2] at h
        by_cases h3 : g.dim = 3
        · rw [if_pos h3] at h; cases h; simp [h3, vtkReads]
        · rw [if_neg h3] at h; cases h
  · by_cases h1 : g.dim = 1
    · rw [if_pos h1] at h; cases h; simp [h1, vtkReads]
    · rw [if_neg h1] at h
      by_cases h2 : g.dim = 2
      · rw [if_pos h2] at h; cases h; simp [h2, vtkReads]
      · rw [if_neg h2] at h
        by_cases h3 : g.dim = 3
        · rw [if_pos h3] at h; cases h; simp [h3, vtkReads]
        · rw [if_neg h3] at h; cases h
  · cases h

theorem XGroup.cellType_defined {g : XGroup} (h : g.Writable) : ∃ t, g.cellType = .ok t := by
  obtain ⟨h1, h2, h3⟩ := h
  unfold XGroup.cellType
  have : g.dim = 1 ∨ g.dim = 2 ∨ g.dim = 3 := by omega
  rcases h1 with h1 | h1 <;> rw [h1] <;> rcases this with h | h | h <;> simp [h]

/-- Without the error. (Specification or proof vocabulary, no code.) -/
def okOr {ε : Type} {α : Type} (d : α) : Except ε α → α
  | .ok a => a
  | .error _ => d

theorem vertexCellTypes_eq {gs : List XGroup} (h : gs ≠ []) (hw : ∀ g ∈ gs, g.Writable) :
    vertexCellTypes gs = .ok (gs.flatMap fun g => List.replicate g.rows.length (okOr 0 g.cellType)) := by
  let f : XGroup → List Nat := fun g => List.replicate g.rows.length (okOr 0 g.cellType)
  have hf : ∀ g, (f g).length = g.rows.length := fun g => by simp [f]
  have h1 := foldlM_ok (f := fun (l : List Nat) (p : Nat × XGroup) => do
      let t ← p.2.cellType
      pure (putAt l p.1 (List.replicate p.2.rows.length t)))
    (g := fun l p => putAt l p.1 (f p.2)) (l := (baseElementNrs (xSizes gs)).zip gs)
    (b := List.replicate (nelements (xSizes gs)) 255) (by
      intro p hp b
      obtain ⟨t, ht⟩ := XGroup.cellType_defined (hw p.2 (List.of_mem_zip hp).2)
      simp only [ht, f, okOr]; rfl)
  have h2 : (((baseElementNrs (xSizes gs)).zip gs).map fun p => (p.1, f p.2)).flatMap Prod.snd = gs.flatMap f := by
    rw [List.flatMap_map]
    have : ((baseElementNrs (xSizes gs)).zip gs).flatMap (fun p => f p.2) =
        (((baseElementNrs (xSizes gs)).zip gs).map Prod.snd).flatMap f := by rw [List.flatMap_map]
    rw [this, List.map_snd_zip (by rw [length_base gs h])]
  have h3 := putAt_consecutive (consecutive_base f hf gs 0)
    (l := List.replicate (nelements (xSizes gs)) 255) (by
      rw [show cumsumFrom 0 (0 :: (xSizes gs).dropLast) = baseElementNrs (xSizes gs) from rfl, h2]
      simp only [List.length_replicate, nelements, xSizes, List.length_flatMap, hf, Nat.zero_add])
  rw [show cumsumFrom 0 (0 :: (xSizes gs).dropLast) = baseElementNrs (xSizes gs) from rfl, h2, List.foldl_map] at h3
  unfold vertexCellTypes
  rw [if_neg h]
  simp only [bind_pure_comp] at h1 ⊢
  rw [h1, h3]
  simp only [List.take_zero, List.nil_append]
  show (if _ then _ else _) = _
  rw [if_pos]
  simp only [List.all_eq_true, List.mem_flatMap, f, bne_iff_ne, ne_eq]
  rintro t ⟨g, hg, ht⟩
  rw [List.mem_replicate] at ht
  obtain ⟨t', ht'⟩ := XGroup.cellType_defined (hw g hg)
  rw [ht.2, ht']
  exact (XGroup.cellType_ok ht').2.2

theorem vertexCellTypes_writable {gs : List XGroup} {ts : List Nat} (h : vertexCellTypes gs = .ok ts) :
    gs ≠ [] ∧ ∀ g ∈ gs, g.Writable := by
  unfold vertexCellTypes at h
  by_cases hg : gs = []
  · rw [if_pos hg] at h; cases h
  rw [if_neg hg] at h
  refine ⟨hg, fun g hgg => ?_⟩
  cases hx : ((baseElementNrs (xSizes gs)).zip gs).foldlM (fun l p => do
      let t ← p.2.cellType
      pure (putAt l p.1 (List.replicate p.2.rows.length t))) (List.replicate (nelements (xSizes gs)) 255) with
  | error e => rw [hx] at h; cases h
  | ok l =>
    have : g ∈ ((baseElementNrs (xSizes gs)).zip gs).map Prod.snd := by
      rw [List.map_snd_zip (by rw [length_base gs hg])]; exact hgg
    obtain ⟨p, hp, rfl⟩ := List.mem_map.1 this
    obtain ⟨b, b', hb⟩ := foldlM_ok_mem hx p hp
    cases ht : p.2.cellType with
    | error e => rw [ht] at hb; cases hb
    | ok t => exact (XGroup.cellType_ok ht).1

theorem XGroup.cells_eq {g : XGroup} (hw : g.Writable) (hs : g.Shaped) :
    g.cells = .ok (g.rows.map g.vtkCell).flatten := by
  unfold XGroup.cells
  obtain ⟨h1, h2, h3⟩ := hw
  rcases h1 with h1 | h1
  · rw [h1]
    have : g.rows.map g.vtkCell = g.rows := by
      conv_rhs => rw [← List.map_id g.rows]
      refine List.map_congr_left fun r _ => ?_
      simp [XGroup.vtkCell, h1]
    rw [this]
  · rw [h1]
    have h4 : ∀ r ∈ g.rows, ∀ o, tensorOrder g.dim = some o → (o.mapM fun k => r[k]?) = some (g.vtkCell r) := by
      intro r hr o ho
      have hl : r.length = 2 ^ g.dim := by rw [hs r hr]; simp [XGroup.corners, h1]
      unfold XGroup.vtkCell
      rw [h1]
      have : g.dim = 1 ∨ g.dim = 2 ∨ g.dim = 3 := by omega
      rcases this with h | h | h <;> rw [h] at ho hl ⊢ <;> simp only [tensorOrder, Option.some.injEq] at ho <;>
        subst ho
      · match r, hl with
        | [a, b], _ => rfl
      · match r, hl with
        | [a, b, c, d], _ => rfl
      · match r, hl with
        | [a, b, c, d, e, f, g, h], _ => rfl
    have h5 : ∃ o, tensorOrder g.dim = some o := by
      have : g.dim = 1 ∨ g.dim = 2 ∨ g.dim = 3 := by omega
      rcases this with h | h | h <;> rw [h] <;> simp [tensorOrder]
    obtain ⟨o, ho⟩ := h5
    simp only [ho]
    have h6 : (g.rows.mapM fun r => o.mapM fun k => r[k]?) = some (g.rows.map g.vtkCell) := by
      have : ∀ l : List (List Nat), (∀ r ∈ l, r ∈ g.rows) →
          (l.mapM fun r => o.mapM fun k => r[k]?) = some (l.map g.vtkCell) := by
        intro l
        induction l with
        | nil => intro _; rfl
        | cons r l ih =>
          intro h
          rw [List.mapM_cons, h4 r (h r (by simp)) o ho, ih fun x hx => h x (by simp [hx])]
          rfl
      exact this _ fun _ h => h
    rw [h6]

theorem XGroup.vtkCell_length {g : XGroup} (hw : g.Writable) {r : List Nat} (hr : r.length = g.corners) :
    (g.vtkCell r).length = g.corners := by
  obtain ⟨h1, h2, h3⟩ := hw
  unfold XGroup.vtkCell
  rcases h1 with h1 | h1
  · rw [h1]; exact hr
  · rw [h1]
    have : g.dim = 1 ∨ g.dim = 2 ∨ g.dim = 3 := by omega
    rcases this with h | h | h <;> simp [XGroup.corners, h1, h, vtkOffsets]

theorem length_flatten_of {l : List (List Nat)} {n : Nat} (h : ∀ r ∈ l, r.length = n) :
    l.flatten.length = l.length * n := by
  induction l with
  | nil => simp
  | cons a l ih =>
    simp only [List.flatten_cons, List.length_append, List.length_cons, h a (by simp),
      ih fun r hr => h r (by simp [hr])]
    rw [Nat.add_mul]; omega

theorem XGroup.cells_length {g : XGroup} (hw : g.Writable) (hs : g.Shaped) :
    (g.rows.map g.vtkCell).flatten.length = g.rows.flatten.length := by
  rw [length_flatten_of (n := g.corners), length_flatten_of hs, List.length_map]
  intro r hr
  obtain ⟨r', hr', rfl⟩ := List.mem_map.1 hr
  exact XGroup.vtkCell_length hw (hs r' hr')

theorem vertexCellsFrom_eq : ∀ {gs : List XGroup} {base : Nat} {l : List Nat}, (∀ g ∈ gs, g.Writable) →
    (∀ g ∈ gs, g.Shaped) → l.length = base + (gs.map fun g => g.rows.flatten.length).sum →
    vertexCellsFrom gs base l = .ok (l.take base ++ gs.flatMap fun g => (g.rows.map g.vtkCell).flatten)
  | [], base, l, _, _, h => by simp at h; simp [vertexCellsFrom, ← h]
  | g :: gs, base, l, hw, hs, h => by
    have hl := XGroup.cells_length (hw g (by simp)) (hs g (by simp))
    simp only [List.map_cons, List.sum_cons] at h
    rw [vertexCellsFrom, XGroup.cells_eq (hw g (by simp)) (hs g (by simp))]
    show vertexCellsFrom gs _ _ = _
    rw [vertexCellsFrom_eq (fun x hx => hw x (by simp [hx])) (fun x hx => hs x (by simp [hx])) (by
      simp only [putAt, List.length_append, List.length_take, List.length_drop, hl]; omega)]
    rw [List.flatMap_cons, ← List.append_assoc]
    congr 2
    have : (l.take base ++ (g.rows.map g.vtkCell).flatten).length = base + g.rows.flatten.length := by
      rw [List.length_append, hl, List.length_take]; omega
    rw [putAt, ← this, List.take_left]

theorem readCells_group {t d n : Nat} (ht : vtkReads t = some (d, n)) {ts cs : List Nat} :
    ∀ {rs : List (List Nat)}, (∀ r ∈ rs, r.length = n) →
    readCells (List.replicate rs.length t ++ ts) (rs.flatten ++ cs) =
      (readCells ts cs).map (rs.map (fun r => (d, r)) ++ ·)
  | [], _ => by simp
  | r :: rs, h => by
    have hr := h r (by simp)
    rw [List.length_cons, List.replicate_succ, List.cons_append, List.flatten_cons, List.append_assoc]
    rw [readCells]
    simp only [ht]
    rw [if_pos (by simp [hr]), ← hr, List.drop_left, List.take_left, readCells_group ht fun x hx => h x (by simp [hx])]
    cases readCells ts cs <;> simp

/-! ## Properties -/

/-- The file of a mesh of lines, triangles, quadrilaterals, tetrahedra and hexahedra is read as the mesh: the
elements in the order of the mesh, each of the dimension of its group, with its corners in the order of VTK.
Meshes with other elements or without groups are refused, as is an existing file that is not to be overwritten. -/
theorem C94_vertices {gs : List XGroup} {junk : List Nat} {there overwrite : Bool} (hs : ∀ g ∈ gs, g.Shaped)
    (hj : junk.length = (gs.map fun g => g.rows.flatten.length).sum) :
    ((∃ out, writeVertexVtk junk gs there overwrite = .ok out) ↔
      gs ≠ [] ∧ (∀ g ∈ gs, g.Writable) ∧ (there = true → overwrite = true)) ∧
    ∀ types cells, writeVertexVtk junk gs there overwrite = .ok (types, cells) →
      readCells types cells = some (gs.flatMap fun g => g.rows.map fun r => (g.dim, g.vtkCell r)) := by
  have key : gs ≠ [] → (∀ g ∈ gs, g.Writable) → writeVertexVtk junk gs there overwrite =
      saveAs there overwrite (gs.flatMap fun g => List.replicate g.rows.length (okOr 0 g.cellType),
        gs.flatMap fun g => (g.rows.map g.vtkCell).flatten) := by
    intro h hw
    unfold writeVertexVtk
    rw [vertexCellTypes_eq h hw, vertexCellsFrom_eq hw hs (by simpa using hj)]
    rfl
  have wr : ∀ out, writeVertexVtk junk gs there overwrite = .ok out → gs ≠ [] ∧ ∀ g ∈ gs, g.Writable := by
    intro out h
    unfold writeVertexVtk at h
    cases ht : vertexCellTypes gs with
    | error e => rw [ht] at h; cases h
    | ok ts => exact vertexCellTypes_writable ht
  refine ⟨⟨?_, ?_⟩, ?_⟩
  · rintro ⟨out, h⟩
    obtain ⟨h1, h2⟩ := wr out h
    refine ⟨h1, h2, fun h3 => ?_⟩
    rw [key h1 h2, saveAs, h3] at h
    cases overwrite with
    | true => rfl
    | false => simp at h
  · rintro ⟨h1, h2, h3⟩
    rw [key h1 h2, saveAs, if_neg (by cases there <;> cases overwrite <;> simp_all)]
    exact ⟨_, rfl⟩
  · intro types cells h
    obtain ⟨h1, h2⟩ := wr _ h
    rw [key h1 h2, saveAs] at h
    split at h
    · cases h
    · cases h
      clear key wr hj h1
      induction gs with
      | nil => rfl
      | cons g gs ih =>
        obtain ⟨t, ht⟩ := XGroup.cellType_defined (h2 g (by simp))
        have hr := (XGroup.cellType_ok ht).2.1
        simp only [List.flatMap_cons]
        rw [show okOr 0 g.cellType = t from by rw [ht]; rfl]
        have := readCells_group hr (rs := g.rows.map g.vtkCell)
          (ts := gs.flatMap fun g => List.replicate g.rows.length (okOr 0 g.cellType))
          (cs := gs.flatMap fun g => (g.rows.map g.vtkCell).flatten) (by
            intro r hr
            obtain ⟨r', hr', rfl⟩ := List.mem_map.1 hr
            exact XGroup.vtkCell_length (h2 g (by simp)) (hs g (by simp) r' hr'))
        rw [List.length_map] at this
        rw [this, ih (fun x hx => hs x (by simp [hx])) (fun x hx => h2 x (by simp [hx]))]
        simp

/-- `mapM` in `Except` entry by entry. -/
theorem mapM_except_getElem {α β ε : Type} {f : α → Except ε β} :
    ∀ {l : List α} {r : List β}, l.mapM f = .ok r → r.length = l.length ∧
      ∀ (i : Nat) (a : α), l[i]? = some a → ∃ b, f a = .ok b ∧ r[i]? = some b
  | [], r, h => by cases h; simp
  | a :: l, r, h => by
    rw [List.mapM_cons] at h
    cases ha : f a with
    | error e => rw [ha] at h; cases h
    | ok b =>
      rw [ha] at h
      cases hl : l.mapM f with
      | error e => rw [hl] at h; cases h
      | ok bs =>
        rw [hl] at h
        cases h
        obtain ⟨h1, h2⟩ := mapM_except_getElem hl
        refine ⟨by simp [h1], fun i x hx => ?_⟩
        cases i with
        | zero => simp at hx; subst hx; exact ⟨b, ha, rfl⟩
        | succ i => exact h2 i x (by simpa using hx)

theorem mapM_except_ok {α β ε : Type} {f : α → Except ε β} :
    ∀ {l : List α}, (∀ a ∈ l, ∃ b, f a = .ok b) → ∃ r, l.mapM f = .ok r
  | [], _ => ⟨[], rfl⟩
  | a :: l, h => by
    obtain ⟨b, hb⟩ := h a (by simp)
    obtain ⟨r, hr⟩ := mapM_except_ok (l := l) fun x hx => h x (by simp [hx])
    exact ⟨b :: r, by rw [List.mapM_cons, hb, hr]; rfl⟩

/-- The elements are numbered from one, group after group. -/
theorem tikz_numbers (gs : List XGroup) : ∀ acc : Nat,
    (((cumsumFrom acc (0 :: (xSizes gs).dropLast)).zip gs).flatMap fun p =>
      p.2.rows.zipIdx.map fun q => (p.1 + q.2 + 1, q.1)) =
    ((gs.flatMap XGroup.rows).zipIdx acc).map fun q => (q.2 + 1, q.1) := by
  induction gs with
  | nil => intro acc; simp
  | cons g gs ih =>
    intro acc
    have hg : (g.rows.zipIdx.map fun q => (acc + q.2 + 1, q.1)) = (g.rows.zipIdx acc).map fun q => (q.2 + 1, q.1) := by
      apply List.ext_getElem?
      intro i
      simp only [List.getElem?_map, List.getElem?_zipIdx, Option.map_map]
      rcases g.rows[i]? with _ | r
      · rfl
      · simp
    cases gs with
    | nil => simpa [xSizes, cumsumFrom] using hg
    | cons g' gs =>
      have := ih (acc + g.rows.length)
      simp only [xSizes, List.map_cons, List.dropLast_cons_cons, cumsumFrom, List.zip_cons_cons, Nat.add_zero,
        List.flatMap_cons] at this ⊢
      rw [this, hg, ← List.map_append, ← List.zipIdx_append]

section
variable {V : Type} [AddCommGroup V] [Module ℚ V]

theorem meshToTikz_eq {vertices : List V} {gs : List XGroup} {t : Tikz V} (h : meshToTikz vertices gs = .ok t) :
    gs ≠ [] ∧ ∃ els, ((gs.flatMap XGroup.rows).zipIdx.mapM fun q => tikzElement vertices (q.2 + 1) q.1) = .ok els ∧
      t = ⟨(gs.flatMap XGroup.rows).length, vertices.length, els.flatMap Prod.fst, els.map Prod.snd⟩ := by
  unfold meshToTikz at h
  by_cases hg : gs = []
  · rw [if_pos hg] at h; cases h
  rw [if_neg hg, show baseElementNrs (xSizes gs) = cumsumFrom 0 (0 :: (xSizes gs).dropLast) from rfl,
    tikz_numbers, List.mapM_map] at h
  refine ⟨hg, ?_⟩
  cases he : ((gs.flatMap XGroup.rows).zipIdx.mapM fun q => tikzElement vertices (q.2 + 1) q.1) with
  | error e =>
    rw [show ((fun e => tikzElement vertices e.1 e.2) ∘ fun q : List Nat × Nat => (q.2 + 1, q.1)) =
      fun q => tikzElement vertices (q.2 + 1) q.1 from rfl, he] at h
    cases h
  | ok els =>
    rw [show ((fun e => tikzElement vertices e.1 e.2) ∘ fun q : List Nat × Nat => (q.2 + 1, q.1)) =
      fun q => tikzElement vertices (q.2 + 1) q.1 from rfl, he] at h
    refine ⟨els, rfl, ?_⟩
    injection h with h
    rw [← h]
    congr 1
    simp [Meshmode.nelements, xSizes, List.length_flatMap]

theorem tikzElement_ok {vertices : List V} {n : Nat} {el : List Nat} {x : List (TikzName × V) × List TikzName}
    (h : tikzElement vertices n el = .ok x) : ∃ pts, (el.mapM fun v => vertices[v]?) = some pts ∧
      pts.length = el.length ∧ x = ((.cent n, centroid pts) :: pts.zipIdx.map (fun p => (.vert n (p.2 + 1), p.1)),
        (List.range el.length).map fun k => .vert n (k + 1)) := by
  unfold tikzElement at h
  cases hp : el.mapM fun v => vertices[v]? with
  | none => rw [hp] at h; cases h
  | some pts =>
    rw [hp] at h
    have hl : pts.length = el.length := by
      clear h
      induction el generalizing pts with
      | nil => simp at hp; simp [← hp]
      | cons a el ih =>
        rw [List.mapM_cons] at hp
        cases ha : vertices[a]? with
        | none => rw [ha] at hp; cases hp
        | some y =>
          rw [ha] at hp
          cases hq : el.mapM fun v => vertices[v]? with
          | none => rw [hq] at hp; cases hp
          | some ys => rw [hq] at hp; cases hp; simp [ih ys hq]
    refine ⟨pts, rfl, hl, ?_⟩
    injection h with h
    rw [← h, hl]

/-- The TikZ source has one point for each corner of each element and one for each centroid, under different
names, with elements and corners numbered from one in the order of the mesh, and for each element a closed path
through its corners.  It fails only for a mesh without groups (valid vertex numbers). -/
theorem C94_tikz {vertices : List V} {gs : List XGroup} (hv : ∀ g ∈ gs, ∀ r ∈ g.rows, ∀ v ∈ r, v < vertices.length) :
    ((∃ t, meshToTikz vertices gs = .ok t) ↔ gs ≠ []) ∧
    ∀ t, meshToTikz vertices gs = .ok t →
      t.nelements = (gs.flatMap XGroup.rows).length ∧ t.nvertices = vertices.length ∧
      (t.coords.map Prod.fst).Nodup ∧ t.draws.length = (gs.flatMap XGroup.rows).length ∧
      ∀ (e : Nat) (r : List Nat), (gs.flatMap XGroup.rows)[e]? = some r →
        ∃ pts, (r.mapM fun v => vertices[v]?) = some pts ∧ (TikzName.cent (e + 1), centroid pts) ∈ t.coords ∧
          (∀ (k : Nat) (p : V), pts[k]? = some p → (TikzName.vert (e + 1) (k + 1), p) ∈ t.coords) ∧
          t.draws[e]? = some ((List.range r.length).map fun k => TikzName.vert (e + 1) (k + 1)) := by
  refine ⟨⟨fun ⟨t, h⟩ => (meshToTikz_eq h).1, fun h => ?_⟩, fun t h => ?_⟩
  · obtain ⟨els, hels⟩ := mapM_except_ok (l := ((baseElementNrs (xSizes gs)).zip gs).flatMap fun p =>
      p.2.rows.zipIdx.map fun q => (p.1 + q.2 + 1, q.1)) (f := fun e => tikzElement vertices e.1 e.2) (by
        rintro ⟨n, r⟩ ha
        obtain ⟨p, hp, ha'⟩ := List.mem_flatMap.1 ha
        obtain ⟨q, hq, hqr⟩ := List.mem_map.1 ha'
        simp only [Prod.mk.injEq] at hqr
        obtain ⟨rfl, rfl⟩ := hqr
        have h1 : q.1 ∈ p.2.rows := by
          obtain ⟨r, i⟩ := q
          exact List.mem_of_getElem? (List.mem_zipIdx_iff_getElem?.1 hq)
        have h2 := hv p.2 (List.of_mem_zip hp).2 q.1 h1
        have h3 : ∀ l : List Nat, (∀ v ∈ l, v < vertices.length) → ∃ pts, (l.mapM fun v => vertices[v]?) = some pts := by
          intro l
          induction l with
          | nil => intro _; exact ⟨[], rfl⟩
          | cons a l ih =>
            intro hl
            obtain ⟨pts, hpts⟩ := ih fun v hv => hl v (by simp [hv])
            exact ⟨vertices[a]'(hl a (by simp)) :: pts, by
              rw [List.mapM_cons, List.getElem?_eq_getElem (hl a (by simp)), hpts]; rfl⟩
        obtain ⟨pts, hpts⟩ := h3 _ h2
        simp only [tikzElement, hpts]
        exact ⟨_, rfl⟩)
    unfold meshToTikz
    rw [if_neg h, hels]
    exact ⟨_, rfl⟩
  · obtain ⟨-, els, hels, rfl⟩ := meshToTikz_eq h
    obtain ⟨hl, hg⟩ := mapM_except_getElem hels
    rw [List.length_zipIdx] at hl
    have key : ∀ (e : Nat) (r : List Nat), (gs.flatMap XGroup.rows)[e]? = some r →
        ∃ pts, (r.mapM fun v => vertices[v]?) = some pts ∧ els[e]? =
          some ((.cent (e + 1), centroid pts) :: pts.zipIdx.map (fun p => (.vert (e + 1) (p.2 + 1), p.1)),
            (List.range r.length).map fun k => .vert (e + 1) (k + 1)) := by
      intro e r hr
      obtain ⟨x, hx, hx'⟩ := hg e (r, e) (by rw [List.getElem?_zipIdx, hr]; simp)
      obtain ⟨pts, h1, h2, h3⟩ := tikzElement_ok hx
      exact ⟨pts, h1, by rw [hx', h3]⟩
    have key' : ∀ (e : Nat) x, els[e]? = some x → (∀ y ∈ x.1.map Prod.fst, y = .cent (e + 1) ∨
        ∃ k, y = .vert (e + 1) k) ∧ (x.1.map Prod.fst).Nodup := by
      intro e x hx
      have he : e < (gs.flatMap XGroup.rows).length := by
        rw [← hl]
        exact (List.getElem?_eq_some_iff.1 hx).1
      obtain ⟨pts, h1, h2⟩ := key e _ (List.getElem?_eq_getElem he)
      rw [hx] at h2
      injection h2 with h2
      subst h2
      simp only [List.map_cons, List.map_map]
      constructor
      · intro y hy
        rcases List.mem_cons.1 hy with rfl | hy
        · exact .inl rfl
        · obtain ⟨q, hq, rfl⟩ := List.mem_map.1 hy
          exact .inr ⟨_, rfl⟩
      · rw [List.nodup_cons]
        refine ⟨by simp, ?_⟩
        have : (pts.zipIdx.map (Prod.fst ∘ fun p : V × Nat => (TikzName.vert (e + 1) (p.2 + 1), p.1))) =
            (List.range pts.length).map fun k => TikzName.vert (e + 1) (k + 1) := by
          apply List.ext_getElem?
          intro i
          simp only [List.getElem?_map, List.getElem?_zipIdx, Option.map_map]
          by_cases hi : i < pts.length
          · simp [hi]
          · simp [Nat.not_lt.1 hi]
        rw [this]
        exact List.nodup_range.map fun a b h => by simpa using h
    refine ⟨rfl, rfl, ?_, by simpa using hl, ?_⟩
    · show ((els.flatMap Prod.fst).map Prod.fst).Nodup
      rw [List.map_flatMap, List.nodup_flatMap]
      refine ⟨fun x hx => ?_, ?_⟩
      · obtain ⟨e, he⟩ := List.mem_iff_getElem?.1 hx
        exact (key' e x he).2
      · rw [List.pairwise_iff_getElem]
        intro i j hi hj hij y h1 h2
        have a := (key' i _ (List.getElem?_eq_getElem hi)).1 y h1
        have b := (key' j _ (List.getElem?_eq_getElem hj)).1 y h2
        rcases a with rfl | ⟨k, rfl⟩ <;> rcases b with h | ⟨k', h⟩ <;> simp at h <;> omega
    · intro e r hr
      obtain ⟨pts, h1, h2⟩ := key e r hr
      have hm := List.mem_of_getElem? h2
      refine ⟨pts, h1, List.mem_flatMap.2 ⟨_, hm, by simp⟩, fun k p hk => List.mem_flatMap.2 ⟨_, hm, ?_⟩, ?_⟩
      · refine List.mem_cons_of_mem _ (List.mem_map.2 ⟨(p, k), ?_, rfl⟩)
        exact List.mem_zipIdx_iff_getElem?.2 hk
      · show (els.map Prod.snd)[e]? = _
        rw [List.getElem?_map, h2]; rfl

theorem segment_iff {n N a b : Nat} (ha : a < n) (hb : b < n) :
    Segment ((List.range n).map fun k => TikzName.vert N (k + 1)) (.vert N (a + 1)) (.vert N (b + 1)) ↔
      b = (a + 1) % n := by
  have get : ∀ i c : Nat, ((List.range n).map fun k => TikzName.vert N (k + 1))[i]? = some (.vert N (c + 1)) ↔
      i = c ∧ i < n := by
    intro i c
    by_cases hi : i < n
    · simp [hi]
    · simp [hi]
  unfold Segment
  simp only [get, List.length_map, List.length_range]
  constructor
  · rintro ⟨i, ⟨rfl, _⟩, h, _⟩; exact h.symm
  · intro h; exact ⟨a, ⟨rfl, ha⟩, h.symm, by rw [← h]; exact hb⟩

/-- Which edges of an element are drawn: the path joins the corners in the order of their numbers, so that it
consists of the edges exactly for lines and triangles (and points).  Quadrilaterals are drawn with their diagonals
in place of two of their sides. -/
theorem C94_tikz_edges_partial {vertices : List V} {gs : List XGroup} {t : Tikz V}
    (h : meshToTikz vertices gs = .ok t) (hv : ∀ g ∈ gs, ∀ r ∈ g.rows, ∀ v ∈ r, v < vertices.length)
    {g : XGroup} (hk : g.type = .simplex ∨ g.type = .tensor) {e : Nat} {r : List Nat}
    (hr : (gs.flatMap XGroup.rows)[e]? = some r) (hs : r.length = g.corners) :
    ∃ path, t.draws[e]? = some path ∧
      ((∀ a b : Nat, a < g.corners → b < g.corners → a ≠ b →
        (Segment path (.vert (e + 1) (a + 1)) (.vert (e + 1) (b + 1)) ∨
          Segment path (.vert (e + 1) (b + 1)) (.vert (e + 1) (a + 1)) ↔ g.IsEdge a b)) ↔
        (g.type = .simplex ∧ g.dim ≤ 2) ∨ (g.type = .tensor ∧ g.dim ≤ 1)) := by
  obtain ⟨-, -, -, -, h2⟩ := (C94_tikz hv).2 t h
  obtain ⟨pts, -, -, -, hd⟩ := h2 e r hr
  refine ⟨_, hd, ?_⟩
  rw [hs]
  constructor
  · intro hall
    rcases hk with hk | hk
    · refine .inl ⟨hk, ?_⟩
      by_contra hc
      have hn : 4 ≤ g.corners := by simp [XGroup.corners, hk]; omega
      have := (hall 0 2 (by omega) (by omega) (by omega)).2 (by simp [XGroup.IsEdge, hk])
      rw [segment_iff (by omega) (by omega), segment_iff (by omega) (by omega), Nat.mod_eq_of_lt (by omega)] at this
      rcases this with h | h
      · omega
      · rcases Nat.lt_or_ge 3 g.corners with h3 | h3
        · rw [Nat.mod_eq_of_lt (by omega)] at h; omega
        · omega
    · refine .inr ⟨hk, ?_⟩
      by_contra hc
      have hn : 4 ≤ g.corners := by
        simp only [XGroup.corners, hk]
        calc 4 = 2 ^ 2 := rfl
          _ ≤ 2 ^ g.dim := Nat.pow_le_pow_right (by omega) (by omega)
      have := (hall 0 2 (by omega) (by omega) (by omega)).2 (by
        simp only [XGroup.IsEdge, hk]
        refine ⟨1, by omega, fun j _ => ?_⟩
        have : Nat.testBit 2 j = decide (1 = j) := by
          rw [show (2 : Nat) = 2 ^ 1 from rfl, Nat.testBit_two_pow]
        rw [this, Nat.zero_testBit]
        by_cases hj : j = 1
        · simp [hj]
        · simp [hj, Ne.symm hj])
      rw [segment_iff (by omega) (by omega), segment_iff (by omega) (by omega), Nat.mod_eq_of_lt (by omega)] at this
      rcases this with h | h
      · omega
      · rcases Nat.lt_or_ge 3 g.corners with h3 | h3
        · rw [Nat.mod_eq_of_lt (by omega)] at h; omega
        · omega
  · intro hc a b ha hb hab
    rw [segment_iff ha hb, segment_iff hb ha]
    rcases hc with ⟨hk, hd⟩ | ⟨hk, hd⟩
    · have hn : g.corners = g.dim + 1 := by simp [XGroup.corners, hk]
      simp only [XGroup.IsEdge, hk]
      refine ⟨fun _ => hab, fun _ => ?_⟩
      have : g.corners = 1 ∨ g.corners = 2 ∨ g.corners = 3 := by omega
      rcases this with h | h | h <;> rw [h] at ha hb ⊢ <;> omega
    · have hd' : g.dim = 0 ∨ g.dim = 1 := by omega
      rcases hd' with h0 | h1
      · have hn : g.corners = 1 := by simp [XGroup.corners, hk, h0]
        omega
      · have hn : g.corners = 2 := by simp [XGroup.corners, hk, h1]
        rw [hn] at ha hb ⊢
        simp only [XGroup.IsEdge, hk, h1]
        constructor
        · intro _
          refine ⟨0, by omega, fun j hj => ?_⟩
          obtain rfl : j = 0 := by omega
          have ha' : a = 0 ∨ a = 1 := by omega
          have hb' : b = 0 ∨ b = 1 := by omega
          rcases ha' with rfl | rfl <;> rcases hb' with rfl | rfl <;> simp at hab ⊢
        · intro _
          omega

theorem mapM_option_ok {α β : Type} {f : α → Option β} : ∀ {l : List α}, (∀ a ∈ l, ∃ b, f a = some b) →
    l.mapM f = some (l.filterMap f)
  | [], _ => rfl
  | a :: l, h => by
    obtain ⟨b, hb⟩ := h a (by simp)
    rw [List.mapM_cons, hb, mapM_option_ok fun x hx => h x (by simp [hx]), List.filterMap_cons, hb]
    rfl

/-- The points of an element, as a list. (Specification or proof vocabulary, no code.) -/
def pointsOf (vertices : List V) (r : List Nat) : List V := r.filterMap fun v => vertices[v]?

omit [AddCommGroup V] [Module ℚ V] in
theorem pointsOf_eq {vertices : List V} {r : List Nat} (h : ∀ v ∈ r, v < vertices.length) :
    (r.mapM fun v => vertices[v]?) = some (pointsOf vertices r) :=
  mapM_option_ok fun v hv => ⟨_, List.getElem?_eq_getElem (h v hv)⟩

omit [AddCommGroup V] [Module ℚ V] in
theorem rows_points {vertices : List V} {rows : List (List Nat)} (h : ∀ r ∈ rows, ∀ v ∈ r, v < vertices.length) :
    (rows.mapM fun r => r.mapM fun v => vertices[v]?) = some (rows.map (pointsOf vertices)) := by
  rw [mapM_option_ok fun r hr => ⟨_, pointsOf_eq (h r hr)⟩]
  congr 1
  induction rows with
  | nil => rfl
  | cons a l ih =>
    rw [List.filterMap_cons, pointsOf_eq (h a (by simp)), List.map_cons, ih fun r hr => h r (by simp [hr])]

omit [AddCommGroup V] [Module ℚ V] in
/-- An STL file is written exactly for a mesh of triangles in three dimensions with one group (and a file that
does not exist or is to be overwritten), and contains the corners of the triangles in the order of the mesh. -/
theorem C94_stl {ambient : Nat} {vertices : List V} {gs : List XGroup} {there overwrite : Bool}
    (hs : ∀ g ∈ gs, g.Shaped) (hv : ∀ g ∈ gs, ∀ r ∈ g.rows, ∀ v ∈ r, v < vertices.length) {out : List (List V)} :
    writeStl ambient vertices gs there overwrite = .ok out ↔
      ∃ g, gs = [g] ∧ ambient = 3 ∧ g.type = .simplex ∧ g.dim = 2 ∧ (there = true → overwrite = true) ∧
        out.length = g.rows.length ∧ ∀ (i : Nat) (r : List Nat) (f : List V), g.rows[i]? = some r → out[i]? = some f →
          f.length = 3 ∧ ∀ (k v : Nat), r[k]? = some v → f[k]? = vertices[v]? := by
  have key : ∀ g, gs = [g] → g.type = .simplex → g.dim = 2 → ambient = 3 →
      writeStl ambient vertices gs there overwrite = saveAs there overwrite (g.rows.map (pointsOf vertices)) ∧
      ∀ (i : Nat) (r : List Nat), g.rows[i]? = some r → (pointsOf vertices r).length = 3 ∧
        ∀ (k v : Nat), r[k]? = some v → (pointsOf vertices r)[k]? = vertices[v]? := by
    rintro g rfl ht hd rfl
    have hlen : ∀ r ∈ g.rows, r.length = 3 := by
      intro r hr
      rw [hs g (by simp) r hr]; simp [XGroup.corners, ht, hd]
    have hpl : ∀ r ∈ g.rows, (pointsOf vertices r).length = 3 ∧
        ∀ (k v : Nat), r[k]? = some v → (pointsOf vertices r)[k]? = vertices[v]? := by
      intro r hr
      have hb := hv g (by simp) r hr
      have h3 := hlen r hr
      match r, h3, hb with
      | [a, b, c], _, hb =>
        have h1 : a < vertices.length := hb a (by simp)
        have h2 : b < vertices.length := hb b (by simp)
        have h3 : c < vertices.length := hb c (by simp)
        have : pointsOf vertices [a, b, c] = [vertices[a], vertices[b], vertices[c]] := by
          simp [pointsOf, List.getElem?_eq_getElem h1, List.getElem?_eq_getElem h2, List.getElem?_eq_getElem h3]
        rw [this]
        refine ⟨rfl, fun k v hk => ?_⟩
        rcases k with _ | _ | _ | k
        · simp at hk; subst hk; simp [h1]
        · simp at hk; subst hk; simp [h2]
        · simp at hk; subst hk; simp [h3]
        · simp at hk
    refine ⟨?_, fun i r hr => hpl r (List.mem_of_getElem? hr)⟩
    unfold writeStl
    simp only [ne_eq, not_true_eq_false, if_false, ht, hd, or_self]
    rw [rows_points (hv g (by simp))]
    simp only
    have : ((g.rows.map (pointsOf vertices)).mapM fun f => (List.range 3).mapM fun k => f[k]?) =
        some (g.rows.map (pointsOf vertices)) := by
      have h4 : ∀ f ∈ g.rows.map (pointsOf vertices), ((List.range 3).mapM fun k => f[k]?) = some f := by
        intro f hf
        obtain ⟨r, hr, rfl⟩ := List.mem_map.1 hf
        have := (hpl r hr).1
        match pointsOf vertices r, this with
        | [a, b, c], _ => rfl
      rw [mapM_option_ok fun f hf => ⟨f, h4 f hf⟩]
      congr 1
      generalize g.rows.map (pointsOf vertices) = l at h4
      induction l with
      | nil => rfl
      | cons a l ih => rw [List.filterMap_cons, h4 a (by simp), ih fun f hf => h4 f (by simp [hf])]
    rw [this]
  constructor
  · intro h
    match gs, hs, hv, key with
    | [], _, _, _ => cases h
    | _ :: _ :: _, _, _, _ => cases h
    | [g], hs, hv, key =>
      by_cases ha : ambient = 3
      · by_cases ht : g.type = .simplex ∧ g.dim = 2
        · obtain ⟨h1, h2⟩ := key g rfl ht.1 ht.2 ha
          rw [h1, saveAs] at h
          split at h
          · cases h
          · rename_i ho
            cases h
            refine ⟨g, rfl, ha, ht.1, ht.2, ?_, by simp, fun i r f hr hf => ?_⟩
            · cases there <;> cases overwrite <;> simp_all
            · rw [List.getElem?_map, hr] at hf
              injection hf with hf
              subst hf
              exact h2 i r hr
        · unfold writeStl at h
          have : g.type ≠ .simplex ∨ g.dim ≠ 2 := by
            by_contra hc; push Not at hc; exact ht hc
          simp only [ha, ne_eq, not_true_eq_false, if_false] at h
          rw [if_pos this] at h
          cases h
      · unfold writeStl at h
        simp only at h
        rw [if_pos ha] at h
        cases h
  · rintro ⟨g, hg, ha, ht, hd, ho, hl, hout⟩
    obtain ⟨h1, h2⟩ := key g hg ht hd ha
    rw [h1, saveAs, if_neg (by cases there <;> cases overwrite <;> simp_all)]
    congr 1
    apply List.ext_getElem?
    intro i
    rw [List.getElem?_map]
    cases hr : g.rows[i]? with
    | none =>
      rw [Option.map_none, List.getElem?_eq_none]
      rw [List.getElem?_eq_none_iff] at hr
      omega
    | some r =>
      have hi : i < out.length := by
        have := (List.getElem?_eq_some_iff.1 hr).1; omega
      obtain ⟨h3, h4⟩ := hout i r _ hr (List.getElem?_eq_getElem hi)
      obtain ⟨h5, h6⟩ := h2 i r hr
      rw [Option.map_some, List.getElem?_eq_getElem hi]
      congr 1
      apply List.ext_getElem?
      intro k
      by_cases hk : k < 3
      · have hrl : r.length = 3 := by
          rw [hs g (by simp [hg]) r (List.mem_of_getElem? hr)]; simp [XGroup.corners, ht, hd]
        have hk' : r[k]? = some (r[k]'(by omega)) := List.getElem?_eq_getElem (by omega)
        rw [h6 k _ hk', h4 k _ hk']
      · rw [List.getElem?_eq_none (by omega), List.getElem?_eq_none (by omega)]

theorem adjCentroids_eq {junk vertices : List V} {gs : List XGroup} (h : gs ≠ [])
    (hv : ∀ g ∈ gs, ∀ r ∈ g.rows, ∀ v ∈ r, v < vertices.length) (hj : junk.length = nelements (xSizes gs)) :
    adjCentroids junk vertices gs = .ok ((gs.flatMap XGroup.rows).map fun r => centroid (pointsOf vertices r)) := by
  let f : XGroup → List V := fun g => g.rows.map fun r => centroid (pointsOf vertices r)
  have hf : ∀ g, (f g).length = g.rows.length := fun g => by simp [f]
  have h2 : (((baseElementNrs (xSizes gs)).zip gs).map fun p => (p.1, f p.2)).flatMap Prod.snd = gs.flatMap f := by
    rw [List.flatMap_map]
    have : ((baseElementNrs (xSizes gs)).zip gs).flatMap (fun p => f p.2) =
        (((baseElementNrs (xSizes gs)).zip gs).map Prod.snd).flatMap f := by rw [List.flatMap_map]
    rw [this, List.map_snd_zip (by rw [length_base gs h])]
  have h3 := putAt_consecutive (consecutive_base f hf gs 0) (l := junk) (by
      rw [show cumsumFrom 0 (0 :: (xSizes gs).dropLast) = baseElementNrs (xSizes gs) from rfl, h2, hj]
      simp only [nelements, xSizes, List.length_flatMap, hf, Nat.zero_add])
  rw [show cumsumFrom 0 (0 :: (xSizes gs).dropLast) = baseElementNrs (xSizes gs) from rfl, h2, List.foldl_map] at h3
  unfold adjCentroids
  rw [if_neg h, foldlM_ok (g := fun l p => putAt l p.1 (f p.2)), h3]
  · simp [f, List.map_flatMap]
  · intro p hp b
    rw [rows_points (hv p.2 (List.of_mem_zip hp).2)]
    simp [f, Function.comp_def]

theorem setSlice_getElem? (l : List Nat) (a b v i : Nat) :
    (setSlice l a b v)[i]? = l[i]?.map fun x => if a ≤ i ∧ i < b then v else x := by
  simp only [setSlice, List.getElem?_map, List.getElem?_zipIdx, Option.map_map]
  rcases l[i]? with _ | x
  · rfl
  · simp

/-- After `m` rounds, the entries below `starts[m]` are those of the rows. -/
theorem adjSources_rounds {starts neighbors junk : List Nat} {n : Nat} (hc : CsrValid starts neighbors n) :
    ∀ {m : Nat}, m ≤ n → ∃ l, adjSources starts m junk = .ok l ∧ l.length = junk.length ∧
      ∀ i a b x : Nat, i < m → starts[i]? = some a → starts[i + 1]? = some b → a ≤ x → x < b → x < junk.length →
        l[x]? = some i
  | 0, _ => ⟨junk, rfl, rfl, by intro i _ _ _ h; omega⟩
  | m + 1, hm => by
    obtain ⟨l, h1, h2, h3⟩ := adjSources_rounds (junk := junk) hc (m := m) (by omega)
    obtain ⟨hlen, h0, hn, hmono⟩ := hc
    have ha : starts[m]? = some starts[m] := List.getElem?_eq_getElem (by omega)
    have hb : starts[m + 1]? = some starts[m + 1] := List.getElem?_eq_getElem (by omega)
    refine ⟨setSlice l starts[m] starts[m + 1] m, ?_, by simp [setSlice, h2], ?_⟩
    · unfold adjSources at h1 ⊢
      rw [List.range_succ, List.foldlM_append, h1]
      simp only [List.foldlM_cons, List.foldlM_nil]
      show ((match starts[m]?, starts[m + 1]? with
        | some a, some b => Except.ok (setSlice l a b m)
        | _, _ => Except.error ExportErr.indexError) >>= pure) = _
      rw [ha, hb]
      rfl
    · intro i a b x hi hia hib hax hxb hx
      rw [setSlice_getElem?]
      rcases Nat.lt_or_ge i m with him | him
      · rw [h3 i a b x him hia hib hax hxb hx]
        have hbm : ∀ k : Nat, i + 1 + k ≤ m → b ≤ starts.getD (i + 1 + k) 0 := by
          intro k
          induction k with
          | zero => intro _; simp [List.getD_eq_getElem?_getD, hib]
          | succ k ih =>
            intro hk
            have p1 : starts[i + 1 + k]? = some (starts[i + 1 + k]'(by omega)) := List.getElem?_eq_getElem (by omega)
            have p2 : starts[i + 1 + k + 1]? = some (starts[i + 1 + k + 1]'(by omega)) :=
              List.getElem?_eq_getElem (by omega)
            have := hmono _ _ _ p1 p2
            have ih' := ih (by omega)
            rw [List.getD_eq_getElem?_getD, p1] at ih'
            rw [show i + 1 + (k + 1) = i + 1 + k + 1 by omega, List.getD_eq_getElem?_getD, p2]
            simp only [Option.getD_some] at ih' ⊢
            omega
        have hb' := hbm (m - (i + 1)) (by omega)
        rw [show i + 1 + (m - (i + 1)) = m by omega, List.getD_eq_getElem?_getD, ha] at hb'
        simp only [Option.getD_some] at hb'
        simp only [Option.map_some]
        rw [if_neg (by omega)]
      · obtain rfl : i = m := by omega
        rw [ha] at hia; rw [hb] at hib
        cases hia; cases hib
        rw [List.getElem?_eq_getElem (by omega)]
        simp only [Option.map_some]
        rw [if_pos ⟨hax, hxb⟩]

/-- Every entry lies in a row. -/
theorem csr_covers {starts neighbors : List Nat} {n : Nat} (hc : CsrValid starts neighbors n) {x : Nat}
    (hx : x < neighbors.length) : ∃ i a b : Nat, i < n ∧ starts[i]? = some a ∧ starts[i + 1]? = some b ∧ a ≤ x ∧ x < b := by
  obtain ⟨hlen, h0, hn, hmono⟩ := hc
  by_contra hcon
  have : ∀ i : Nat, i ≤ n → ∃ a, starts[i]? = some a ∧ a ≤ x := by
    intro i
    induction i with
    | zero => intro _; exact ⟨0, h0, by omega⟩
    | succ i ih =>
      intro hi
      obtain ⟨a, ha, hax⟩ := ih (by omega)
      have hb : starts[i + 1]? = some (starts[i + 1]'(by omega)) := List.getElem?_eq_getElem (by omega)
      refine ⟨_, hb, ?_⟩
      by_contra hc
      exact hcon ⟨i, a, _, by omega, ha, hb, hax, by omega⟩
  obtain ⟨a, ha, hax⟩ := this n (Nat.le_refl _)
  rw [hn] at ha
  cases ha
  omega

/-- The nodal adjacency file has one point for each element, the centroid of its vertices, and its lines are the
pairs of element and neighbor, one for each entry of the adjacency, in its order.  It fails only for a mesh without
groups or an existing file that is not to be overwritten. -/
theorem C94_nodal_adjacency {junk vertices : List V} {junk' : List Nat} {gs : List XGroup} {starts neighbors : List Nat}
    {there overwrite : Bool} (hv : ∀ g ∈ gs, ∀ r ∈ g.rows, ∀ v ∈ r, v < vertices.length)
    (hc : CsrValid starts neighbors (nelements (xSizes gs))) (hj : junk.length = nelements (xSizes gs))
    (hj' : junk'.length = neighbors.length) :
    ((∃ out, writeNodalAdjacency junk junk' vertices gs starts neighbors there overwrite = .ok out) ↔
      gs ≠ [] ∧ (there = true → overwrite = true)) ∧
    ∀ points lines, writeNodalAdjacency junk junk' vertices gs starts neighbors there overwrite = .ok (points, lines) →
      points = (gs.flatMap XGroup.rows).map (fun r => centroid (pointsOf vertices r)) ∧
      lines.map Prod.snd = neighbors ∧
      ∀ i j x : Nat, lines[x]? = some (i, j) ↔ neighbors[x]? = some j ∧
        ∃ a b, starts[i]? = some a ∧ starts[i + 1]? = some b ∧ a ≤ x ∧ x < b := by
  obtain ⟨col, h1, h2, h3⟩ := adjSources_rounds (junk := junk') hc (Nat.le_refl _)
  have key : gs ≠ [] → writeNodalAdjacency junk junk' vertices gs starts neighbors there overwrite =
      saveAs there overwrite ((gs.flatMap XGroup.rows).map (fun r => centroid (pointsOf vertices r)),
        col.zip neighbors) := by
    intro h
    unfold writeNodalAdjacency
    rw [adjCentroids_eq h hv hj, h1]
    rfl
  have wr : ∀ out, writeNodalAdjacency junk junk' vertices gs starts neighbors there overwrite = .ok out → gs ≠ [] := by
    rintro out h rfl
    cases h
  refine ⟨⟨?_, ?_⟩, ?_⟩
  · rintro ⟨out, h⟩
    have hg := wr out h
    refine ⟨hg, fun h3 => ?_⟩
    rw [key hg, saveAs, h3] at h
    cases overwrite with
    | true => rfl
    | false => simp at h
  · rintro ⟨hg, ho⟩
    rw [key hg, saveAs, if_neg (by cases there <;> cases overwrite <;> simp_all)]
    exact ⟨_, rfl⟩
  · intro points lines h
    have hg := wr _ h
    rw [key hg, saveAs] at h
    split at h
    · cases h
    · cases h
      refine ⟨rfl, List.map_snd_zip (by omega), fun i j x => ?_⟩
      rw [List.getElem?_zip_eq_some]
      constructor
      · rintro ⟨hx, hy⟩
        have hlt : x < neighbors.length := (List.getElem?_eq_some_iff.1 hy).1
        obtain ⟨i', a, b, hi, ha, hb, hax, hxb⟩ := csr_covers hc hlt
        have := h3 i' a b x hi ha hb hax hxb (by omega)
        rw [hx] at this
        cases this
        exact ⟨hy, a, b, ha, hb, hax, hxb⟩
      · rintro ⟨hy, a, b, ha, hb, hax, hxb⟩
        have hlt : x < neighbors.length := (List.getElem?_eq_some_iff.1 hy).1
        have hi : i < nelements (xSizes gs) := by
          have := (List.getElem?_eq_some_iff.1 hb).1
          have := hc.1
          omega
        exact ⟨h3 i a b x hi ha hb hax hxb (by omega), hy⟩

end

/-! ## Examples -/

/-- A quadrilateral and two triangles. (Example, no code.) -/
def exExport : List XGroup := [⟨.tensor, 2, [[0, 1, 2, 3]]⟩, ⟨.simplex, 2, [[1, 4, 3], [4, 5, 3]]⟩]

/-- Six vertices on a line of rationals, for the tests of positions. (Example, no code.) -/
def exExportVerts : List ℚ := [0, 1, 2, 3, 4, 5]

example : (∀ g ∈ exExport, g.Shaped) ∧ (∀ g ∈ exExport, g.Writable) := by
  simp [exExport, XGroup.Shaped, XGroup.Writable, XGroup.corners]

example : okOr ([], []) (writeVertexVtk (List.replicate 10 77) exExport false false) =
    ([9, 5, 5], [0, 1, 3, 2, 1, 4, 3, 4, 5, 3]) := by decide

example : ∀ g ∈ exExport, ∀ r ∈ g.rows, ∀ v ∈ r, v < exExportVerts.length := by decide

/-- A quadrilateral is drawn with a segment between its corners 1 and 2, which are opposite to each other: with the
diagonal, not with the side from corner 0 to corner 2. -/
theorem C94_tikz_counterexample : ∃ t, meshToTikz exExportVerts exExport = .ok t ∧
    ∃ path, t.draws[0]? = some path ∧ Segment path (.vert 1 2) (.vert 1 3) ∧
      ¬ (⟨.tensor, 2, [[0, 1, 2, 3]]⟩ : XGroup).IsEdge 1 2 ∧ (⟨.tensor, 2, [[0, 1, 2, 3]]⟩ : XGroup).IsEdge 0 2 ∧
      ¬ Segment path (.vert 1 1) (.vert 1 3) ∧ ¬ Segment path (.vert 1 3) (.vert 1 1) := by
  have hv : ∀ g ∈ exExport, ∀ r ∈ g.rows, ∀ v ∈ r, v < exExportVerts.length := by decide
  obtain ⟨t, ht⟩ := (C94_tikz hv).1.2 (by decide)
  refine ⟨t, ht, ?_⟩
  obtain ⟨pts, -, -, -, hd⟩ := ((C94_tikz hv).2 t ht).2.2.2.2 0 [0, 1, 2, 3] rfl
  refine ⟨_, hd, ?_, ?_, ?_, ?_, ?_⟩
  · exact (segment_iff (n := 4) (a := 1) (b := 2) (by omega) (by omega)).2 rfl
  · simp only [XGroup.IsEdge]
    rintro ⟨k, hk, h⟩
    have a := (h 0 (by omega)).1 (by decide)
    have b := (h 1 (by omega)).1 (by decide)
    omega
  · simp only [XGroup.IsEdge]
    exact ⟨1, by omega, fun j hj => by
      have : j = 0 ∨ j = 1 := by omega
      rcases this with rfl | rfl <;> decide⟩
  · exact fun h => by
      have := (segment_iff (n := 4) (a := 0) (b := 2) (by omega) (by omega)).1 h
      omega
  · exact fun h => by
      have := (segment_iff (n := 4) (a := 2) (b := 0) (by omega) (by omega)).1 h
      omega

/-- Two triangles in space. (Example, no code.) -/
def exStl : List XGroup := [⟨.simplex, 2, [[1, 4, 3], [4, 5, 3]]⟩]

example : okOr [] (writeStl 3 exExportVerts exStl true true) = [[1, 4, 3], [4, 5, 3]] := by decide +kernel

example : (∀ g ∈ exStl, g.Shaped) ∧ ∀ g ∈ exStl, ∀ r ∈ g.rows, ∀ v ∈ r, v < exExportVerts.length := by
  refine ⟨by simp [exStl, XGroup.Shaped, XGroup.corners], by decide⟩

/-- The nodal adjacency of `exExport`: the quadrilateral meets both triangles. (Example, no code.) -/
example : CsrValid [0, 2, 4, 6] [1, 2, 0, 2, 0, 1] (nelements (xSizes exExport)) := by
  refine ⟨rfl, rfl, rfl, ?_⟩
  intro i a b ha hb
  rcases i with _ | _ | _ | i <;> simp at ha hb <;> omega

example : (okOr ([], []) (writeNodalAdjacency [9, 9, 9] [7, 7, 7, 7, 7, 7] exExportVerts exExport [0, 2, 4, 6]
    [1, 2, 0, 2, 0, 1] false false)).2 = [(0, 1), (0, 2), (1, 0), (1, 2), (2, 0), (2, 1)] := by decide +kernel

end Meshmode
