import Verif.Interop.FiredrakeNodal
import Verif.Interop.FiredrakeMesh

/-!
# Geometry and flips of meshes imported from Firedrake (C81)

`import_firedrake_mesh` and `_get_firedrake_orientations` (meshmode/interop/firedrake/mesh.py).
-/
namespace Meshmode

variable {P : Type}

/-! ## Model -/

/-- What the code reads from a Firedrake mesh.  `coords` is `coordinates.dat.data`, one point for every node;
`vertexDofs` the sorted values of `entity_dofs()[0]`; `orientations` is `cell_orientations().dat.data`.
Code: meshmode/interop/firedrake/mesh.py:477, 604-605, 640-644, 660-681. -/
structure FdGeo (P : Type) where
  top : FdTopology
  tdim : Nat
  gdim : Nat
  numVertices : Nat
  cellNodes : List (List Nat)
  coords : List P
  vertexDofs : List (List Nat)
  orientations : List Int

/-- Exceptions. Code: meshmode/interop/firedrake/mesh.py:597-608, 625, 649, 669-672. -/
inductive FdImpErr where
  /-- an `assert` of the arguments -/
  | args
  /-- raised in `_get_firedrake_nodal_info` -/
  | nodal
  /-- `np.vectorize` on an array without entries -/
  | vectorize
  /-- `IndexError` -/
  | index
  /-- `ValueError` of `np.transpose` -/
  | axes
  /-- the `assert` on degrees of freedom of vertices -/
  | dofs
  /-- the `assert` on orientations -/
  | orient
  deriving DecidableEq, Repr

/-- The assertions on the arguments. Code: meshmode/interop/firedrake/mesh.py:593-608. -/
def fdArgsOk (g : FdGeo P) (use : Option (List Nat)) : Bool :=
  (match use with
    | none => true
    | some u => decide u.Nodup && u.all fun c => decide (c < g.top.closures.length)) &&
  decide (g.gdim = 1 ∨ g.gdim = 2 ∨ g.gdim = 3) && decide (g.gdim = g.tdim ∨ g.gdim = g.tdim + 1)

/-- The vertex numbers of the new mesh and the number of vertices: as they are, or, when only some cells are
used, renumbered. Code: meshmode/interop/firedrake/mesh.py:616-625, 678-681. -/
def fdRenumber (use : Option (List Nat)) (numVertices : Nat) (rows : List (List Nat)) :
    Except FdImpErr (List (List Nat) × Nat) :=
  match use with
  | none => .ok (rows, numVertices)
  | some _ =>
    if rows.flatten = [] then .error .vectorize
    else .ok (rows.map fun row => row.map fun v => (npUnique rows.flatten).idxOf v, (npUnique rows.flatten).length)

/-- `coords.dat.data[cell_node_list]` for the cells used; `none` is an `IndexError`.
Code: meshmode/interop/firedrake/mesh.py:640-644. -/
def fdNodes (g : FdGeo P) (use : Option (List Nat)) : Option (List (List P)) :=
  (match use with
    | none => some g.cellNodes
    | some u => u.mapM fun c => g.cellNodes[c]?).bind fun l =>
      l.mapM fun row : List Nat => row.mapM fun n => g.coords[n]?

/-- The number of axes of `nodes` before it is transposed: the data of a scalar function (`gdim = 1`) has one axis
less, and an axis is added when `tdim = 1`. Code: meshmode/interop/firedrake/mesh.py:644-649. -/
def fdNodeAxes (g : FdGeo P) : Nat := (if g.gdim = 1 then 2 else 3) + (if g.tdim = 1 then 1 else 0)

/-- `unit_vertex_indices`; `none` is the failed assertion.
Code: meshmode/interop/firedrake/mesh.py:666-675. -/
def fdUnitVertices (l : List (List Nat)) : Option (List Nat) :=
  l.mapM fun dofs => match dofs with
    | [d] => some d
    | _ => none

/-- The innermost body of the loop that finds the vertices: `p` is the local and the global number of a vertex.
An entry `none` has not been written (`recorded_verts`); the result `none` is an `IndexError`.
Code: meshmode/interop/firedrake/mesh.py:685-689. -/
def recordVertex (uvi : List Nat) (nodeRow : List P) (t : List (Option P)) (p : Nat × Nat) :
    Option (List (Option P)) :=
  match t[p.2]? with
  | none => none
  | some (some _) => some t
  | some none => (uvi[p.1]?.bind fun n => nodeRow[n]?).map fun x => t.set p.2 (some x)

/-- The loop that finds the vertices; entries which are never written hold whatever was in memory (`none`).
Code: meshmode/interop/firedrake/mesh.py:682-689. -/
def recordVertices (uvi : List Nat) (nv : Nat) (cells : List (List Nat × List P)) : Option (List (Option P)) :=
  cells.foldlM (fun t c => (c.1.zipIdx.map fun q => (q.2, q.1)).foldlM (recordVertex uvi c.2) t)
    (List.replicate nv none)

/-- `_get_firedrake_orientations` without normals: the orientations, and what is afterwards in Firedrake's array
(`orient *= 2` works in place, and indexing with `cells_to_use` makes a copy).  `vol` is the answer of
`find_volume_mesh_element_group_orientation`, of which only the sign matters.
Code: meshmode/interop/firedrake/mesh.py:419-497. -/
def fdOrientations (g : FdGeo P) (use : Option (List Nat)) (ncells : Nat) (vol : List Int) :
    Except FdImpErr (List Int × List Int) :=
  if g.gdim = g.tdim then .ok (vol, g.orientations)
  else if g.tdim = 1 ∧ g.gdim = 2 then .ok (List.replicate ncells 1, g.orientations)
  else if g.tdim = 2 ∧ g.gdim = 3 then
    match use with
    | none => .ok (g.orientations.map fun x => x * 2 - 1, g.orientations.map fun x => x * 2 - 1)
    | some u =>
      match u.mapM fun c => g.orientations[c]? with
      | none => .error .index
      | some o => .ok (o.map fun x => x * 2 - 1, g.orientations)
  else .error .orient

/-- `no_zero_face_ndx` and `no_one_face_ndx`. Code: meshmode/interop/firedrake/mesh.py:711-716. -/
def noFaces (faces : List (List Nat)) : Option Nat × Option Nat :=
  faces.zipIdx.foldl (fun s p =>
    if !p.1.contains 0 then (some p.2, s.2)
    else if !p.1.contains 1 then (s.1, some p.2) else s) (none, none)

/-- `flip_local_face_indices` for one entry.  (Writing `None` would be a `TypeError`; simplices have both faces.)
Code: meshmode/interop/firedrake/mesh.py:728-735. -/
def flipFaceNr (faces : List (List Nat)) (orient : List Int) (e f : Nat) : Nat :=
  if orient.getD e 0 < 0 then
    if (noFaces faces).1 = some f then (noFaces faces).2.getD f
    else if (noFaces faces).2 = some f then (noFaces faces).1.getD f
    else f
  else f

/-- The facial adjacency groups: interior groups with their rows, groups of a boundary tag with their faces.
Code: meshmode/interop/firedrake/mesh.py:741-767. -/
inductive FdFacial where
  | interior (rows : List FdRow)
  | boundary (tag : Int) (sides : List (Nat × Nat))
  deriving DecidableEq, Repr

/-- A group with its faces flipped. Code: meshmode/interop/firedrake/mesh.py:743-767. -/
def FdFacial.flip (faces : List (List Nat)) (orient : List Int) : FdFacial → FdFacial
  | .interior rows => .interior (rows.map fun r =>
      ((r.1.1, flipFaceNr faces orient r.1.1 r.1.2), (r.2.1, flipFaceNr faces orient r.2.1 r.2.2)))
  | .boundary tag sides => .boundary tag (sides.map fun s => (s.1, flipFaceNr faces orient s.1 s.2))

/-- The imported mesh: vertices (`none`: not initialized), the group's vertex indices and nodes, nodal and facial
adjacency, and the orientations. Code: meshmode/interop/firedrake/mesh.py:769-777. -/
structure FdImported (P : Type) where
  vertices : List (Option P)
  rows : List (List Nat)
  nodes : List (List P)
  starts : List Nat
  neighbors : List Nat
  facial : List FdFacial
  orient : List Int
  deriving DecidableEq, Repr

/-- `import_firedrake_mesh`, with what is afterwards in Firedrake's array of orientations.  Parameters: `faces` is
`group.face_vertex_indices()`, `vol` finds the orientations of elements of full dimension, `nodeFlip` multiplies the
nodes of an element by the flip matrix (C45), `facial` is the result of `_get_firedrake_facial_adjacency_groups` (C48).
Normals are not given.  `make_mesh` and its checks are left out.
Code: meshmode/interop/firedrake/mesh.py:504-777. -/
def importFd (faces : List (List Nat)) (vol : List (Option P) → List (List Nat) → List Int)
    (nodeFlip : List P → List P) (facial : List FdFacial) (g : FdGeo P) (use : Option (List Nat)) :
    Except FdImpErr (FdImported P × List Int) :=
  if !fdArgsOk g use then .error .args
  else match fdNodalInfo g.top use with
  | none => .error .nodal
  | some nd =>
  match fdRenumber use g.numVertices (nd.vertexIndices.map fun row => row.map Int.toNat) with
  | .error e => .error e
  | .ok (rows, nv) =>
  match fdNodes g use with
  | none => .error .index
  | some nodes =>
  if fdNodeAxes g ≠ 3 then .error .axes
  else match fdUnitVertices g.vertexDofs with
  | none => .error .dofs
  | some uvi =>
  match recordVertices uvi nv (rows.zip nodes) with
  | none => .error .index
  | some vertices =>
  match fdOrientations g use rows.length (vol vertices rows) with
  | .error e => .error e
  | .ok (orient, data) =>
  match flipPermutation (.simplex g.tdim) with
  | .error _ => .error .index
  | .ok perm =>
  if orient.length ≠ rows.length then .error .index
  else
    let flags := orient.map fun o => decide (o < 0)
    .ok ({ vertices := vertices
           rows := List.zipWith (fun f row => if f then flipRow perm row else row) flags rows
           nodes := List.zipWith (fun f nd => if f then nodeFlip nd else nd) flags nodes
           starts := nd.starts
           neighbors := nd.neighbors
           facial := facial.map (FdFacial.flip faces orient)
           orient := orient }, data)

/-! ## Specification -/

/-- Vertex `v` (as numbered in Firedrake) is local vertex `l` of element `k` of the mesh to be made.
(Specification or proof vocabulary, no code.) -/
def FdGeo.IsVertex (g : FdGeo P) (use : Option (List Nat)) (k l : Nat) (v : Int) : Prop :=
  ∃ (c : Nat) (cl : List Nat) (d : Nat), usedCell use k = some c ∧ g.top.closures[c]? = some cl ∧
    (g.top.dmpVerts cl)[l]? = some d ∧ g.top.vertexNumber d = v

/-- The point Firedrake has at local vertex `l` of element `k`.
(Specification or proof vocabulary, no code.) -/
def FdGeo.PointAt (g : FdGeo P) (use : Option (List Nat)) (k l : Nat) (x : P) : Prop :=
  ∃ (c : Nat) (ns : List Nat) (n i : Nat), usedCell use k = some c ∧ g.cellNodes[c]? = some ns ∧
    g.vertexDofs[l]? = some [n] ∧ ns[n]? = some i ∧ g.coords[i]? = some x

/-- Coordinates are continuous at vertices: a vertex has the same coordinates in all cells.
(Specification or proof vocabulary, no code.) -/
def FdGeo.Continuous (g : FdGeo P) : Prop :=
  ∀ k l k' l' v x x', g.IsVertex none k l v → g.IsVertex none k' l' v → g.PointAt none k l x →
    g.PointAt none k' l' x' → x = x'

/-- The mesh is one of simplices with well-formed data. (Specification or proof vocabulary, no code.) -/
structure FdGeo.OK (g : FdGeo P) : Prop where
  top : g.top.OK
  verts : g.top.cellVerts = g.tdim + 1
  cells : g.cellNodes.length = g.top.closures.length
  nodes : ∀ ns ∈ g.cellNodes, ∀ n ∈ ns, n < g.coords.length
  dofs : g.vertexDofs.length = g.tdim + 1
  single : ∀ ds ∈ g.vertexDofs, ∃ n, ds = [n] ∧ ∀ ns ∈ g.cellNodes, n < ns.length
  numbers : ∀ d, g.top.vStart ≤ d → d < g.top.vEnd → g.top.vertexNumber d < g.numVertices
  orient : g.gdim = g.tdim + 1 → g.orientations.length = g.top.closures.length

/-- The faces of a simplex with `n` vertices: face `f` has all vertices except one, and no vertex is left out by
two faces or by none. (Specification or proof vocabulary, no code.) -/
def SimplexFaces (n : Nat) (faces : List (List Nat)) : Prop :=
  ∃ opp : Nat → Nat, (∀ (f : Nat) (face : List Nat), faces[f]? = some face → opp f < n ∧
      ∀ v, v ∈ face ↔ v < n ∧ v ≠ opp f) ∧
    (∀ f f', f < faces.length → f' < faces.length → opp f = opp f' → f = f') ∧
    (∀ v, v < n → ∃ f, f < faces.length ∧ opp f = v)

/-- Vertex `v` is on face `f` of an element with the given vertices.
(Specification or proof vocabulary, no code.) -/
def OnFace (faces : List (List Nat)) (row : List Nat) (f v : Nat) : Prop :=
  ∃ (face : List Nat) (i : Nat), faces[f]? = some face ∧ i ∈ face ∧ row[i]? = some v

/-- The first two entries exchanged. (Specification or proof vocabulary, no code.) -/
def swapFirstTwo : List Nat → List Nat
  | a :: b :: l => b :: a :: l
  | l => l

/-- A numbering `num` of Firedrake's vertices that describes the imported mesh `M`.
(Specification or proof vocabulary, no code.) -/
structure FdNumbering (g : FdGeo P) (use : Option (List Nat)) (M : FdImported P) (num : Int → Nat) : Prop where
  /-- without a choice of cells, Firedrake's numbers are kept -/
  same : use = none → ∀ k l v, g.IsVertex use k l v → (num v : Int) = v
  /-- the order of the vertices is kept -/
  mono : ∀ k l v k' l' v', g.IsVertex use k l v → g.IsVertex use k' l' v' → v < v' → num v < num v'
  /-- with a choice of cells, exactly their vertices are in the mesh -/
  used : use ≠ none → ∀ n, n < M.vertices.length ↔ ∃ k l v, g.IsVertex use k l v ∧ num v = n
  /-- the elements are the cells chosen; those with negative orientation have their first two vertices exchanged -/
  rows : ∀ k, M.rows[k]? = (usedCell use k).bind fun c => g.top.closures[c]?.map fun cl =>
    if M.orient.getD k 0 < 0 then swapFirstTwo ((g.top.dmpVerts cl).map fun d => num (g.top.vertexNumber d))
    else (g.top.dmpVerts cl).map fun d => num (g.top.vertexNumber d)
  /-- the coordinates of every vertex are those Firedrake has in every cell -/
  points : g.Continuous → ∀ k l v x, g.IsVertex use k l v → g.PointAt use k l x →
    M.vertices[num v]? = some (some x)

/-! ## Lemmas -/

/-- What a loop that fills a table does. (Specification or proof vocabulary, no code.) -/
structure Fills (t t' : List (Option P)) (src : Nat → P → Prop) (cov : Nat → Prop) : Prop where
  len : t'.length = t.length
  from_ : ∀ (v : Nat) (x : P), t'[v]? = some (some x) → t[v]? = some (some x) ∨ src v x
  keep : ∀ (v : Nat) (x : P), t[v]? = some (some x) → t'[v]? = some (some x)
  cover : ∀ (v : Nat), cov v → ∃ x, t'[v]? = some (some x)

theorem foldlM_fills {α : Type} {step : List (Option P) → α → Option (List (Option P))}
    {src : α → Nat → P → Prop} {cov : α → Nat → Prop} {l : List α}
    (h : ∀ a ∈ l, ∀ t t', step t a = some t' → Fills t t' (src a) (cov a)) {t t' : List (Option P)}
    (ht : l.foldlM step t = some t') :
    Fills t t' (fun v x => ∃ a ∈ l, src a v x) (fun v => ∃ a ∈ l, cov a v) := by
  induction l generalizing t with
  | nil =>
    simp only [List.foldlM_nil, Option.pure_def, Option.some.injEq] at ht
    subst ht
    exact ⟨rfl, fun v x hx => Or.inl hx, fun v x hx => hx, by simp⟩
  | cons a l ih =>
    rw [List.foldlM_cons] at ht
    simp only [Option.bind_eq_bind, Option.bind_eq_some_iff] at ht
    obtain ⟨t1, h1, h2⟩ := ht
    have f1 := h a List.mem_cons_self t t1 h1
    have f2 := ih (fun b hb => h b (List.mem_cons_of_mem _ hb)) h2
    refine ⟨f2.len.trans f1.len, ?_, fun v x hx => f2.keep v x (f1.keep v x hx), ?_⟩
    · intro v x hx
      rcases f2.from_ v x hx with h3 | ⟨b, hb, h3⟩
      · rcases f1.from_ v x h3 with h4 | h4
        · exact Or.inl h4
        · exact Or.inr ⟨a, List.mem_cons_self, h4⟩
      · exact Or.inr ⟨b, List.mem_cons_of_mem _ hb, h3⟩
    · rintro v ⟨b, hb, hc⟩
      rcases List.mem_cons.1 hb with rfl | hb
      · obtain ⟨x, hx⟩ := f1.cover v hc
        exact ⟨x, f2.keep v x hx⟩
      · exact f2.cover v ⟨b, hb, hc⟩

theorem recordVertex_fills {uvi : List Nat} {nodeRow : List P} {t t' : List (Option P)} {p : Nat × Nat}
    (h : recordVertex uvi nodeRow t p = some t') :
    Fills t t' (fun v x => v = p.2 ∧ ∃ n, uvi[p.1]? = some n ∧ nodeRow[n]? = some x) (fun v => v = p.2) := by
  unfold recordVertex at h
  split at h
  · simp at h
  · rename_i y hy
    simp only [Option.some.injEq] at h
    subst h
    exact ⟨rfl, fun v x hx => Or.inl hx, fun v x hx => hx, by rintro v rfl; exact ⟨_, hy⟩⟩
  · rename_i hy
    obtain ⟨x, hx, rfl⟩ := Option.map_eq_some_iff.1 h
    obtain ⟨n, hn, hx⟩ := Option.bind_eq_some_iff.1 hx
    have hlt := (List.getElem?_eq_some_iff.1 hy).1
    refine ⟨by simp, ?_, ?_, ?_⟩
    · intro v z hz
      rw [List.getElem?_set] at hz
      split at hz
      · rename_i hv
        subst hv
        simp only [Option.some.injEq] at hz
        subst hz
        exact Or.inr ⟨rfl, n, hn, hx⟩
      · exact Or.inl hz
    · intro v z hz
      rw [List.getElem?_set]
      split
      · rename_i hv
        subst hv
        rw [hy] at hz
        simp at hz
      · exact hz
    · rintro v rfl
      exact ⟨x, by rw [List.getElem?_set]; simp [hlt]⟩

theorem recordVertices_fills {uvi : List Nat} {nv : Nat} {cells : List (List Nat × List P)}
    {t : List (Option P)} (h : recordVertices uvi nv cells = some t) :
    t.length = nv ∧
    (∀ (v : Nat) (x : P), t[v]? = some (some x) → ∃ c ∈ cells, ∃ l n : Nat, c.1[l]? = some v ∧
      uvi[l]? = some n ∧ c.2[n]? = some x) ∧
    (∀ c ∈ cells, ∀ v ∈ c.1, ∃ x, t[v]? = some (some x)) := by
  unfold recordVertices at h
  have := foldlM_fills (src := fun c v x => ∃ p ∈ c.1.zipIdx.map fun q => (q.2, q.1),
      v = p.2 ∧ ∃ n, uvi[p.1]? = some n ∧ c.2[n]? = some x)
    (cov := fun c v => ∃ p ∈ c.1.zipIdx.map fun q => (q.2, q.1), v = p.2)
    (fun c _ t t' ht => foldlM_fills (fun p _ t t' h => recordVertex_fills h) ht) h
  refine ⟨by simpa using this.len, ?_, ?_⟩
  · intro v x hx
    rcases this.from_ v x hx with h1 | ⟨c, hc, p, hp, rfl, n, hn, hx'⟩
    · rw [List.getElem?_replicate] at h1
      split at h1 <;> simp at h1
    · obtain ⟨q, hq, rfl⟩ := List.mem_map.1 hp
      exact ⟨c, hc, q.2, n, List.mem_zipIdx_iff_getElem?.1 hq, hn, hx'⟩
  · intro c hc v hv
    obtain ⟨l, hl⟩ := List.mem_iff_getElem?.1 hv
    exact this.cover v ⟨c, hc, (l, v), List.mem_map.2 ⟨(v, l), List.mem_zipIdx_iff_getElem?.2 hl, rfl⟩, rfl⟩

theorem recordVertices_defined {uvi : List Nat} {nv : Nat} {cells : List (List Nat × List P)}
    (h : ∀ c ∈ cells, (∀ v ∈ c.1, v < nv) ∧ c.1.length ≤ uvi.length ∧ ∀ n ∈ uvi, n < c.2.length) :
    ∃ t, recordVertices uvi nv cells = some t := by
  have := foldlM_isSome (fun (t : List (Option P)) (c : List Nat × List P) =>
      (c.1.zipIdx.map fun q => (q.2, q.1)).foldlM (recordVertex uvi c.2) t)
    (fun t => t.length = nv) cells (by
      intro t ht c hc
      obtain ⟨h1, h2, h3⟩ := h c hc
      refine foldlM_isSome (recordVertex uvi c.2) (fun t => t.length = nv) _ ?_ t ht
      intro t ht p hp
      obtain ⟨⟨v, l⟩, hq, rfl⟩ := List.mem_map.1 hp
      have hl := List.mem_zipIdx_iff_getElem?.1 hq
      have hv := h1 v (List.mem_of_getElem? hl)
      have hlt := (List.getElem?_eq_some_iff.1 hl).1
      simp only at hlt
      simp only [recordVertex]
      rw [List.getElem?_eq_getElem (by omega : v < t.length)]
      cases hc : t[v] with
      | some y => exact ⟨t, by simp, ht⟩
      | none =>
        rw [List.getElem?_eq_getElem (by omega : l < uvi.length)]
        simp only [Option.bind_some]
        rw [List.getElem?_eq_getElem (h3 _ (List.getElem_mem _))]
        exact ⟨_, rfl, by simpa using ht⟩) (List.replicate nv none) (by simp)
  obtain ⟨t, ht, _⟩ := this
  exact ⟨t, ht⟩

theorem importFd_ok {faces : List (List Nat)} {vol : List (Option P) → List (List Nat) → List Int}
    {nodeFlip : List P → List P} {facial : List FdFacial} {g : FdGeo P} {use : Option (List Nat)}
    {M : FdImported P} {data : List Int} (h : importFd faces vol nodeFlip facial g use = .ok (M, data)) :
    ∃ nd rows nv nodes uvi perm, fdArgsOk g use = true ∧ fdNodalInfo g.top use = some nd ∧
      fdRenumber use g.numVertices (nd.vertexIndices.map fun row => row.map Int.toNat) = .ok (rows, nv) ∧
      fdNodes g use = some nodes ∧ fdNodeAxes g = 3 ∧ fdUnitVertices g.vertexDofs = some uvi ∧
      recordVertices uvi nv (rows.zip nodes) = some M.vertices ∧
      fdOrientations g use rows.length (vol M.vertices rows) = .ok (M.orient, data) ∧
      flipPermutation (.simplex g.tdim) = .ok perm ∧ M.orient.length = rows.length ∧
      M.rows = List.zipWith (fun f row => if f then flipRow perm row else row)
        (M.orient.map fun o => decide (o < 0)) rows ∧
      M.nodes = List.zipWith (fun f nd => if f then nodeFlip nd else nd)
        (M.orient.map fun o => decide (o < 0)) nodes ∧
      M.starts = nd.starts ∧ M.neighbors = nd.neighbors ∧
      M.facial = facial.map (FdFacial.flip faces M.orient) := by
  unfold importFd at h
  split at h
  · simp at h
  rename_i hargs
  split at h
  · simp at h
  rename_i nd hnd
  split at h
  · simp at h
  rename_i rows nv hren
  split at h
  · simp at h
  rename_i nodes hnodes
  split at h
  · simp at h
  rename_i hax
  split at h
  · simp at h
  rename_i uvi huvi
  split at h
  · simp at h
  rename_i vertices hv
  split at h
  · simp at h
  rename_i orient data' ho
  split at h
  · simp at h
  rename_i perm hperm
  split at h
  · simp at h
  rename_i hlen
  simp only [Except.ok.injEq, Prod.mk.injEq] at h
  obtain ⟨rfl, rfl⟩ := h
  exact ⟨nd, rows, nv, nodes, uvi, perm, by simpa using hargs, hnd, hren, hnodes, by omega, huvi, hv, ho, hperm,
    by simpa using hlen, rfl, rfl, rfl, rfl, rfl⟩

theorem isVertex_iff {g : FdGeo P} (hg : g.top.OK) {use : Option (List Nat)} {nd : FdNodal}
    (h : fdNodalInfo g.top use = some nd) {k l : Nat} {v : Int} :
    g.IsVertex use k l v ↔ ∃ row : List Int, nd.vertexIndices[k]? = some row ∧ row[l]? = some v := by
  rw [C80_vertex_indices hg h]
  unfold FdGeo.IsVertex
  constructor
  · rintro ⟨c, cl, d, hc, hcl, hd, rfl⟩
    exact ⟨_, by rw [hc, Option.bind_some, hcl]; rfl, by rw [List.getElem?_map, hd]; rfl⟩
  · rintro ⟨row, hrow, hv⟩
    obtain ⟨c, hc, hrow⟩ := Option.bind_eq_some_iff.1 hrow
    obtain ⟨cl, hcl, rfl⟩ := Option.map_eq_some_iff.1 hrow
    rw [List.getElem?_map] at hv
    obtain ⟨d, hd, rfl⟩ := Option.map_eq_some_iff.1 hv
    exact ⟨c, cl, d, hc, hcl, hd, rfl⟩

theorem pointAt_iff {g : FdGeo P} {use : Option (List Nat)} {nodes : List (List P)} {uvi : List Nat}
    (hn : fdNodes g use = some nodes) (hu : fdUnitVertices g.vertexDofs = some uvi) {k l : Nat} {x : P} :
    g.PointAt use k l x ↔ ∃ (row : List P) (n : Nat), nodes[k]? = some row ∧ uvi[l]? = some n ∧
      row[n]? = some x := by
  unfold fdNodes at hn
  obtain ⟨ls, hls, hn⟩ := Option.bind_eq_some_iff.1 hn
  have hk : ∀ k : Nat, ls[k]? = (usedCell use k).bind fun c => g.cellNodes[c]? := by
    intro k
    cases use with
    | none => simp only [Option.some.injEq] at hls; subst hls; rfl
    | some u => exact mapM_getElem?_bind hls k
  unfold FdGeo.PointAt
  constructor
  · rintro ⟨c, ns, n, i, hc, hns, hd, hi, hx⟩
    have h1 : ls[k]? = some ns := by rw [hk, hc]; exact hns
    obtain ⟨row, hr, hrow⟩ := (mapM_getElem?_some hn).2 k ns h1
    refine ⟨row, n, hr, ?_, ?_⟩
    · rw [mapM_getElem?_bind hu, hd]; rfl
    · rw [mapM_getElem?_bind hrow, hi]; exact hx
  · rintro ⟨row, n, hr, hl, hx⟩
    rw [mapM_getElem?_bind hn] at hr
    obtain ⟨ns, hns, hrow⟩ := Option.bind_eq_some_iff.1 hr
    rw [hk] at hns
    obtain ⟨c, hc, hns⟩ := Option.bind_eq_some_iff.1 hns
    rw [mapM_getElem?_bind hu] at hl
    obtain ⟨ds, hds, hl⟩ := Option.bind_eq_some_iff.1 hl
    rw [mapM_getElem?_bind hrow] at hx
    obtain ⟨i, hi, hx⟩ := Option.bind_eq_some_iff.1 hx
    refine ⟨c, ns, n, i, hc, hns, ?_, hi, hx⟩
    split at hl
    · simp only [Option.some.injEq] at hl; subst hl; exact hds
    · simp at hl

theorem isVertex_none {g : FdGeo P} {use : Option (List Nat)} {k l : Nat} {v : Int}
    (h : g.IsVertex use k l v) : ∃ c, usedCell use k = some c ∧ g.IsVertex none c l v := by
  obtain ⟨c, cl, d, hc, hcl, hd, hv⟩ := h
  exact ⟨c, hc, c, cl, d, rfl, hcl, hd, hv⟩

theorem pointAt_none {g : FdGeo P} {use : Option (List Nat)} {k l : Nat} {x : P}
    (h : g.PointAt use k l x) : ∃ c, usedCell use k = some c ∧ g.PointAt none c l x := by
  obtain ⟨c, ns, n, i, hc, h⟩ := h
  exact ⟨c, hc, c, ns, n, i, rfl, h⟩

/-- The numbering that `fdRenumber` uses. -/
theorem fdRenumber_spec {use : Option (List Nat)} {numVertices nv : Nat} {old rows : List (List Nat)}
    (h : fdRenumber use numVertices old = .ok (rows, nv)) :
    ∃ num : Nat → Nat, rows = old.map (fun row => row.map num) ∧ (use = none → num = id ∧ nv = numVertices) ∧
      (∀ v v', v ∈ old.flatten → v' ∈ old.flatten → v < v' → num v < num v') ∧
      (use ≠ none → ∀ n, n < nv ↔ ∃ v ∈ old.flatten, num v = n) := by
  cases use with
  | none =>
    simp only [fdRenumber, Except.ok.injEq, Prod.mk.injEq] at h
    obtain ⟨rfl, rfl⟩ := h
    exact ⟨id, by simp, fun _ => ⟨rfl, rfl⟩, fun _ _ _ _ h => h, fun h => absurd rfl h⟩
  | some u =>
    simp only [fdRenumber] at h
    split at h
    · simp at h
    simp only [Except.ok.injEq, Prod.mk.injEq] at h
    obtain ⟨rfl, rfl⟩ := h
    refine ⟨fun v => (npUnique old.flatten).idxOf v, rfl, fun h => by simp at h, ?_, ?_⟩
    · intro v v' hv hv' hlt
      have h1 := List.idxOf_lt_length_of_mem (mem_npUnique.2 hv)
      have h2 := List.idxOf_lt_length_of_mem (mem_npUnique.2 hv')
      have hp := List.pairwise_iff_getElem.1 (pairwise_lt_npUnique old.flatten)
      have e1 := List.getElem_idxOf h1
      have e2 := List.getElem_idxOf h2
      by_contra hc
      simp only at hc
      rcases Nat.lt_or_ge ((npUnique old.flatten).idxOf v') ((npUnique old.flatten).idxOf v) with h3 | h3
      · have := hp _ _ h2 h1 h3
        rw [e1, e2] at this
        omega
      · have : (npUnique old.flatten).idxOf v' = (npUnique old.flatten).idxOf v := by omega
        have := (List.idxOf_inj (mem_npUnique.2 hv')).1 this
        omega
    · intro _ n
      constructor
      · intro hn
        exact ⟨(npUnique old.flatten)[n], mem_npUnique.1 (List.getElem_mem _),
          (nodup_npUnique _).idxOf_getElem n hn⟩
      · rintro ⟨v, hv, rfl⟩
        exact List.idxOf_lt_length_of_mem (mem_npUnique.2 hv)

theorem flipRow_simplex {n : Nat} {perm row : List Nat} (hp : flipPermutation (.simplex n) = .ok perm)
    (hl : row.length = n + 1) : flipRow perm row = swapFirstTwo row := by
  cases n with
  | zero => simp [flipPermutation] at hp
  | succ n =>
    match row, hl with
    | a :: b :: rest, hl =>
      obtain ⟨perm', hp', h⟩ := C45_simplex_row n a b rest (by simpa using hl)
      rw [hp] at hp'
      cases hp'
      exact h

/-! ## Theorems -/

/-- **C81.** Elements, vertex numbers and vertex coordinates of the imported mesh are those of the Firedrake mesh,
up to a renumbering of vertices when only some cells are used and the exchange of two vertices in cells with
negative orientation. -/
theorem C81_geometry {faces : List (List Nat)} {vol : List (Option P) → List (List Nat) → List Int}
    {nodeFlip : List P → List P} {facial : List FdFacial} {g : FdGeo P} {use : Option (List Nat)}
    {M : FdImported P} {data : List Int} (hg : g.OK)
    (h : importFd faces vol nodeFlip facial g use = .ok (M, data)) : ∃ num, FdNumbering g use M num := by
  obtain ⟨nd, rows, nv, nodes, uvi, perm, -, hnd, hren, hnodes, -, huvi, hv, -, hperm, hlen, hrows, -⟩ :=
    importFd_ok h
  obtain ⟨num, hr, hid, hmono, hused⟩ := fdRenumber_spec hren
  have hpos : ∀ {k l : Nat} {v : Int}, g.IsVertex use k l v → 0 ≤ v := by
    intro k l v hk
    obtain ⟨row, h1, h2⟩ := (isVertex_iff hg.top hnd).1 hk
    obtain ⟨cls, -, -, hnn, -⟩ := fdNodalInfo_some hnd
    exact hnn row (List.mem_of_getElem? h1) v (List.mem_of_getElem? h2)
  have hmem : ∀ {k l : Nat} {v : Int}, g.IsVertex use k l v →
      v.toNat ∈ (nd.vertexIndices.map fun row => row.map Int.toNat).flatten := by
    intro k l v hk
    obtain ⟨row, h1, h2⟩ := (isVertex_iff hg.top hnd).1 hk
    rw [List.mem_flatten]
    exact ⟨_, List.mem_map_of_mem (List.mem_of_getElem? h1), List.mem_map_of_mem (List.mem_of_getElem? h2)⟩
  have hrow : ∀ k : Nat, rows[k]? = (usedCell use k).bind fun c => g.top.closures[c]?.map fun cl =>
      (g.top.dmpVerts cl).map fun d => num (g.top.vertexNumber d).toNat := by
    intro k
    rw [hr, List.getElem?_map, List.getElem?_map, C80_vertex_indices hg.top hnd]
    cases usedCell use k with
    | none => rfl
    | some c =>
      simp only [Option.bind_some]
      cases g.top.closures[c]? with
      | none => rfl
      | some cl => simp [Function.comp_def]
  have hmono' : ∀ k l v k' l' v', g.IsVertex use k l v → g.IsVertex use k' l' v' → v < v' →
      num v.toNat < num v'.toNat := by
    intro k l v k' l' v' h1 h2 hlt
    have := hpos h1
    exact hmono _ _ (hmem h1) (hmem h2) (by omega)
  refine ⟨fun v => num v.toNat, ?_, hmono', ?_, ?_, ?_⟩
  · intro hu k l v hk
    have := hpos hk
    simp only [(hid hu).1, id]
    omega
  · intro hu n
    rw [(recordVertices_fills hv).1, hused hu]
    constructor
    · rintro ⟨v, hvm, rfl⟩
      obtain ⟨row', hr', hv'⟩ := List.mem_flatten.1 hvm
      obtain ⟨row, hrw, rfl⟩ := List.mem_map.1 hr'
      obtain ⟨w, hw, rfl⟩ := List.mem_map.1 hv'
      obtain ⟨k, hk⟩ := List.mem_iff_getElem?.1 hrw
      obtain ⟨l, hl⟩ := List.mem_iff_getElem?.1 hw
      exact ⟨k, l, w, (isVertex_iff hg.top hnd).2 ⟨row, hk, hl⟩, rfl⟩
    · rintro ⟨k, l, v, hk, rfl⟩
      exact ⟨_, hmem hk, rfl⟩
  · intro k
    rw [hrows, List.getElem?_zipWith, List.getElem?_map]
    have hk := hrow k
    cases hrk : rows[k]? with
    | none =>
      rw [hrk] at hk
      have : (usedCell use k).bind (fun c => g.top.closures[c]?) = none := by
        cases hu : usedCell use k with
        | none => rfl
        | some c =>
          rw [hu] at hk
          simpa using hk.symm
      cases hu : usedCell use k with
      | none => cases M.orient[k]? <;> rfl
      | some c =>
        rw [hu, Option.bind_some] at this
        simp only [Option.bind_some, this]
        cases M.orient[k]? <;> rfl
    | some row =>
      have hlt : k < M.orient.length := by
        rw [hlen]; exact (List.getElem?_eq_some_iff.1 hrk).1
      rw [hrk] at hk
      obtain ⟨c, hc, hk⟩ := Option.bind_eq_some_iff.1 hk.symm
      obtain ⟨cl, hcl, hk⟩ := Option.map_eq_some_iff.1 hk
      rw [hc, Option.bind_some, hcl, List.getElem?_eq_getElem hlt]
      simp only [Option.map_some, List.getD_eq_getElem?_getD, List.getElem?_eq_getElem hlt, Option.getD_some,
        decide_eq_true_eq, Option.some.injEq]
      rw [hk]
      have hl : row.length = g.tdim + 1 := by
        rw [← hk, List.length_map, hg.top.count cl (List.mem_of_getElem? hcl), hg.verts]
      rw [flipRow_simplex hperm hl]
  · intro hcont k l v x hk hx
    obtain ⟨-, hfrom, hcov⟩ := recordVertices_fills hv
    have hk' := hk
    obtain ⟨row, h1, h2⟩ := (isVertex_iff hg.top hnd).1 hk
    obtain ⟨nrow, n, h3, h4, h5⟩ := (pointAt_iff hnodes huvi).1 hx
    have hrk : rows[k]? = some (row.map fun x => num x.toNat) := by
      rw [hr, List.getElem?_map, List.getElem?_map, h1]
      simp [Function.comp_def]
    obtain ⟨x0, hx0⟩ := hcov (row.map fun x => num x.toNat, nrow)
      (List.mem_iff_getElem?.2 ⟨k, (List.getElem?_zip_eq_some (z := (_, _))).2 ⟨hrk, h3⟩⟩) (num v.toNat)
      (List.mem_map.2 ⟨v, List.mem_of_getElem? h2, rfl⟩)
    obtain ⟨⟨r', nr'⟩, hc, l', n', h6, h7, h8⟩ := hfrom _ _ hx0
    obtain ⟨k', hc⟩ := List.mem_iff_getElem?.1 hc
    obtain ⟨h9, h10⟩ := (List.getElem?_zip_eq_some (z := (r', nr'))).1 hc
    have hx0' : g.PointAt use k' l' x0 := (pointAt_iff hnodes huvi).2 ⟨nr', n', h10, h7, h8⟩
    rw [hr, List.getElem?_map, List.getElem?_map] at h9
    obtain ⟨q, hq, h9⟩ := Option.map_eq_some_iff.1 h9
    obtain ⟨row', hrow', rfl⟩ := Option.map_eq_some_iff.1 hq
    simp only at h9
    subst h9
    rw [List.getElem?_map, List.getElem?_map] at h6
    obtain ⟨q, hq, h6⟩ := Option.map_eq_some_iff.1 h6
    obtain ⟨v', hv', rfl⟩ := Option.map_eq_some_iff.1 hq
    have hk2 : g.IsVertex use k' l' v' := (isVertex_iff hg.top hnd).2 ⟨row', hrow', hv'⟩
    have hvv : v' = v := by
      rcases lt_trichotomy v' v with h | h | h
      · have := hmono' _ _ _ _ _ _ hk2 hk h; omega
      · exact h
      · have := hmono' _ _ _ _ _ _ hk hk2 h; omega
    subst hvv
    obtain ⟨c1, hc1, e1⟩ := isVertex_none hk
    obtain ⟨c2, hc2, e2⟩ := isVertex_none hk2
    obtain ⟨c3, hc3, e3⟩ := pointAt_none hx
    obtain ⟨c4, hc4, e4⟩ := pointAt_none hx0'
    rw [hc1] at hc3
    rw [hc2] at hc4
    cases hc3; cases hc4
    rw [hx0, hcont _ _ _ _ _ _ _ e1 e2 e3 e4]

theorem noFaces_append (faces : List (List Nat)) (face : List Nat) : noFaces (faces ++ [face]) =
    if !face.contains 0 then (some faces.length, (noFaces faces).2)
    else if !face.contains 1 then ((noFaces faces).1, some faces.length) else noFaces faces := by
  unfold noFaces
  rw [List.zipIdx_append, List.foldl_append]
  simp

theorem noFaces_spec (faces : List (List Nat)) :
    (∀ f, (noFaces faces).1 = some f → ∃ face, faces[f]? = some face ∧ 0 ∉ face) ∧
    (∀ f, (noFaces faces).2 = some f → ∃ face, faces[f]? = some face ∧ 0 ∈ face ∧ 1 ∉ face) ∧
    (∀ (f : Nat) (face : List Nat), faces[f]? = some face → 0 ∉ face → (noFaces faces).1 ≠ none) ∧
    (∀ (f : Nat) (face : List Nat), faces[f]? = some face → 0 ∈ face → 1 ∉ face → (noFaces faces).2 ≠ none) := by
  induction faces using List.reverseRecOn with
  | nil => simp [noFaces]
  | append_singleton faces face ih =>
    obtain ⟨h1, h2, h3, h4⟩ := ih
    have ext : ∀ {f : Nat} {fc : List Nat}, faces[f]? = some fc → (faces ++ [face])[f]? = some fc := by
      intro f fc h
      rw [List.getElem?_append_left (List.getElem?_eq_some_iff.1 h).1, h]
    have last : (faces ++ [face])[faces.length]? = some face := by simp
    have split' : ∀ {f : Nat} {fc : List Nat}, (faces ++ [face])[f]? = some fc →
        faces[f]? = some fc ∨ fc = face := by
      intro f fc h
      rw [List.getElem?_append] at h
      split at h
      · exact Or.inl h
      · right
        have := List.mem_of_getElem? h
        simpa using this
    rw [noFaces_append]
    by_cases hz : 0 ∈ face
    · by_cases ho : 1 ∈ face
      · simp only [List.contains_eq_mem, hz, ho, decide_true, Bool.not_true, Bool.false_eq_true, if_false]
        refine ⟨fun f hf => ?_, fun f hf => ?_, fun f fc hf h0 => ?_, fun f fc hf h0 h1' => ?_⟩
        · obtain ⟨fc, a, b⟩ := h1 f hf; exact ⟨fc, ext a, b⟩
        · obtain ⟨fc, a, b⟩ := h2 f hf; exact ⟨fc, ext a, b⟩
        · rcases split' hf with h | rfl
          · exact h3 f fc h h0
          · exact absurd hz h0
        · rcases split' hf with h | rfl
          · exact h4 f fc h h0 h1'
          · exact absurd ho h1'
      · simp only [List.contains_eq_mem, hz, ho, decide_true, decide_false, Bool.not_true, Bool.not_false,
          Bool.false_eq_true, if_false, if_true]
        refine ⟨fun f hf => ?_, fun f hf => ?_, fun f fc hf h0 => ?_, fun f fc hf h0 h1' => by simp⟩
        · obtain ⟨fc, a, b⟩ := h1 f hf; exact ⟨fc, ext a, b⟩
        · simp only [Option.some.injEq] at hf
          subst hf
          exact ⟨face, last, hz, ho⟩
        · rcases split' hf with h | rfl
          · exact h3 f fc h h0
          · exact absurd hz h0
    · simp only [List.contains_eq_mem, hz, decide_false, Bool.not_false, if_true]
      refine ⟨fun f hf => ?_, fun f hf => ?_, fun f fc hf h0 => by simp, fun f fc hf h0 h1' => ?_⟩
      · simp only [Option.some.injEq] at hf
        subst hf
        exact ⟨face, last, hz⟩
      · obtain ⟨fc, a, b⟩ := h2 f hf; exact ⟨fc, ext a, b⟩
      · rcases split' hf with h | rfl
        · exact h4 f fc h h0 h1'
        · exact absurd h0 hz

theorem swapFirstTwo_getElem? (row : List Nat) (h : 2 ≤ row.length) (i : Nat) :
    (swapFirstTwo row)[i]? = row[if i = 0 then 1 else if i = 1 then 0 else i]? := by
  match row, h with
  | a :: b :: l, _ =>
    match i with
    | 0 => rfl
    | 1 => rfl
    | i + 2 => simp [swapFirstTwo]

/-- **C81.** When an element is flipped, the new number of a face denotes the same face: it has the same vertices. -/
theorem C81_face_flip {n : Nat} {faces : List (List Nat)} (hf : SimplexFaces n faces) (hn : 2 ≤ n)
    {row : List Nat} (hl : row.length = n) (orient : List Int) (e : Nat) {f : Nat} (hlt : f < faces.length)
    (v : Nat) :
    OnFace faces (if orient.getD e 0 < 0 then swapFirstTwo row else row) (flipFaceNr faces orient e f) v ↔
      OnFace faces row f v := by
  unfold flipFaceNr
  by_cases ho : orient.getD e 0 < 0
  · rw [if_pos ho, if_pos ho]
    obtain ⟨opp, hopp, hinj, hsurj⟩ := hf
    obtain ⟨f0, hf0, ho0⟩ := hsurj 0 (by omega)
    obtain ⟨f1, hf1, ho1⟩ := hsurj 1 (by omega)
    obtain ⟨s1, s2, s3, s4⟩ := noFaces_spec faces
    have g0 := List.getElem?_eq_getElem hf0
    have g1 := List.getElem?_eq_getElem hf1
    have e1 : (noFaces faces).1 = some f0 := by
      have hne := s3 f0 _ g0 (by rw [(hopp _ _ g0).2 0, ho0]; omega)
      obtain ⟨x, hx⟩ := Option.ne_none_iff_exists'.1 hne
      obtain ⟨face, hface, h0⟩ := s1 x hx
      have := (hopp x face hface).2 0
      have hox : opp x = 0 := by
        by_contra hc
        exact h0 (this.2 ⟨by omega, fun h => hc h.symm⟩)
      rw [hx, hinj x f0 (List.getElem?_eq_some_iff.1 hface).1 hf0 (by rw [hox, ho0])]
    have e2 : (noFaces faces).2 = some f1 := by
      have hne := s4 f1 _ g1 (by rw [(hopp _ _ g1).2 0, ho1]; omega) (by rw [(hopp _ _ g1).2 1, ho1]; omega)
      obtain ⟨x, hx⟩ := Option.ne_none_iff_exists'.1 hne
      obtain ⟨face, hface, h0, h1⟩ := s2 x hx
      have := (hopp x face hface).2 1
      have hox : opp x = 1 := by
        by_contra hc
        exact h1 (this.2 ⟨by omega, fun h => hc h.symm⟩)
      rw [hx, hinj x f1 (List.getElem?_eq_some_iff.1 hface).1 hf1 (by rw [hox, ho1])]
    have key : ∀ (r : List Nat) (f : Nat), r.length = n → f < faces.length →
        (OnFace faces r f v ↔ ∃ i, i ≠ opp f ∧ r[i]? = some v) := by
      intro r f hr hf
      have gf := List.getElem?_eq_getElem hf
      unfold OnFace
      constructor
      · rintro ⟨face, i, h1, h2, h3⟩
        exact ⟨i, (((hopp f face h1).2 i).1 h2).2, h3⟩
      · rintro ⟨i, h1, h2⟩
        exact ⟨_, i, gf, ((hopp f _ gf).2 i).2 ⟨hr ▸ (List.getElem?_eq_some_iff.1 h2).1, h1⟩, h2⟩
    have hsl : (swapFirstTwo row).length = n := by
      rw [← hl]
      match row with
      | [] => rfl
      | [a] => rfl
      | a :: b :: l => rfl
    have go : ∀ f', f' < faces.length → opp f' = (if opp f = 0 then 1 else if opp f = 1 then 0 else opp f) →
        (OnFace faces (swapFirstTwo row) f' v ↔ OnFace faces row f v) := by
      intro f' hf' hof
      rw [key _ _ hsl hf', key _ _ hl hlt]
      constructor
      · rintro ⟨i, h1, h2⟩
        rw [swapFirstTwo_getElem? row (by omega)] at h2
        refine ⟨_, ?_, h2⟩
        rw [hof] at h1
        split_ifs at h1 ⊢ <;> omega
      · rintro ⟨i, h1, h2⟩
        refine ⟨if i = 0 then 1 else if i = 1 then 0 else i, ?_, ?_⟩
        · rw [hof]
          split_ifs <;> omega
        · rw [swapFirstTwo_getElem? row (by omega), ← h2]
          congr 1
          split_ifs <;> first | omega | simp_all
    rw [e1, e2]
    by_cases c0 : f = f0
    · subst c0
      rw [if_pos rfl]
      exact go f1 hf1 (by rw [ho0, ho1]; rfl)
    · have c0' : ¬ f0 = f := fun h => c0 h.symm
      rw [if_neg (by simpa using c0')]
      by_cases c1 : f = f1
      · subst c1
        rw [if_pos rfl]
        exact go f0 hf0 (by rw [ho0, ho1]; rfl)
      · have c1' : ¬ f1 = f := fun h => c1 h.symm
        rw [if_neg (by simpa using c1')]
        have n0 : opp f ≠ 0 := fun h => c0 (hinj f f0 hlt hf0 (by rw [h, ho0]))
        have n1 : opp f ≠ 1 := fun h => c1 (hinj f f1 hlt hf1 (by rw [h, ho1]))
        exact go f hlt (by rw [if_neg n0, if_neg n1])
  · rw [if_neg ho, if_neg ho]

/-- The sides named by a facial adjacency group: element and face.
(Specification or proof vocabulary, no code.) -/
def FdFacial.sides : FdFacial → List (Nat × Nat)
  | .interior rows => rows.map Prod.fst ++ rows.map Prod.snd
  | .boundary _ sides => sides

/-- **C81.** The facial adjacency groups name the same faces, in the same order, before and after the flips: for
every side, the element is the same, and the vertices of its face in the imported mesh are those which the face
had in the Firedrake cell. -/
theorem C81_faces {faces : List (List Nat)} {vol : List (Option P) → List (List Nat) → List Int}
    {nodeFlip : List P → List P} {facial : List FdFacial} {g : FdGeo P} {use : Option (List Nat)}
    {M : FdImported P} {data : List Int} (hg : g.OK) (hf : SimplexFaces (g.tdim + 1) faces) (hd : 1 ≤ g.tdim)
    (h : importFd faces vol nodeFlip facial g use = .ok (M, data)) {num : Int → Nat}
    (hnum : FdNumbering g use M num) {i : Nat} {grp : FdFacial} (hi : facial[i]? = some grp) :
    ∃ grp', M.facial[i]? = some grp' ∧ grp'.sides.length = grp.sides.length ∧
      ∀ (j e f : Nat), grp.sides[j]? = some (e, f) → ∃ f', grp'.sides[j]? = some (e, f') ∧
        (f < faces.length → ∀ c cl row, usedCell use e = some c → g.top.closures[c]? = some cl →
          M.rows[e]? = some row → ∀ v, OnFace faces row f' v ↔
            OnFace faces ((g.top.dmpVerts cl).map fun d => num (g.top.vertexNumber d)) f v) := by
  obtain ⟨nd, rows, nv, nodes, uvi, perm, -, -, -, -, -, -, -, -, -, -, -, -, -, -, hfac⟩ := importFd_ok h
  have hs : (grp.flip faces M.orient).sides = grp.sides.map fun s => (s.1, flipFaceNr faces M.orient s.1 s.2) := by
    cases grp with
    | interior rows => simp [FdFacial.flip, FdFacial.sides, Function.comp_def]
    | boundary tag sides => rfl
  refine ⟨grp.flip faces M.orient, by rw [hfac, List.getElem?_map, hi]; rfl, by rw [hs, List.length_map], ?_⟩
  intro j e f hj
  refine ⟨flipFaceNr faces M.orient e f, by rw [hs, List.getElem?_map, hj]; rfl, ?_⟩
  intro hlt c cl row hc hcl hrow v
  have hr := hnum.rows e
  rw [hc, Option.bind_some, hcl, hrow, Option.map_some, Option.some.injEq] at hr
  rw [hr]
  exact C81_face_flip hf (by omega)
    (by rw [List.length_map, hg.top.count cl (List.mem_of_getElem? hcl), hg.verts]) M.orient e hlt v

/-- **C81.** On surfaces in space, an element is flipped exactly when Firedrake's orientation of the cell is 0 (the
values are 0 and 1). -/
theorem C81_surface_orient {faces : List (List Nat)} {vol : List (Option P) → List (List Nat) → List Int}
    {nodeFlip : List P → List P} {facial : List FdFacial} {g : FdGeo P} {use : Option (List Nat)}
    {M : FdImported P} {data : List Int} (hdim : g.tdim = 2 ∧ g.gdim = 3)
    (hval : ∀ x ∈ g.orientations, x = 0 ∨ x = 1)
    (h : importFd faces vol nodeFlip facial g use = .ok (M, data)) {k c : Nat} {o : Int}
    (hc : usedCell use k = some c) (ho : g.orientations[c]? = some o) :
    ∃ q, M.orient[k]? = some q ∧ (q < 0 ↔ o = 0) ∧ (0 < q ↔ o = 1) := by
  obtain ⟨nd, rows, nv, nodes, uvi, perm, -, -, -, -, -, -, -, hor, -⟩ := importFd_ok h
  unfold fdOrientations at hor
  rw [if_neg (by omega), if_neg (by omega), if_pos hdim] at hor
  have hv := hval o (List.mem_of_getElem? ho)
  refine ⟨o * 2 - 1, ?_, by omega, by omega⟩
  cases use with
  | none =>
    simp only [usedCell, Option.some.injEq] at hc
    simp only [Except.ok.injEq, Prod.mk.injEq] at hor
    rw [← hor.1, List.getElem?_map, hc, ho]
    rfl
  | some u =>
    simp only at hor
    split at hor
    · simp at hor
    rename_i os hos
    simp only [Except.ok.injEq, Prod.mk.injEq] at hor
    rw [← hor.1, List.getElem?_map, mapM_getElem?_bind hos]
    simp only [usedCell] at hc
    rw [hc, Option.bind_some, ho]
    rfl

/-- **C81.** When the import leaves Firedrake's own orientations alone: not on surfaces, if all cells are used and
some cell has the orientation 0. -/
theorem C81_firedrake_data_iff {faces : List (List Nat)} {vol : List (Option P) → List (List Nat) → List Int}
    {nodeFlip : List P → List P} {facial : List FdFacial} {g : FdGeo P} {use : Option (List Nat)}
    {M : FdImported P} {data : List Int}
    (h : importFd faces vol nodeFlip facial g use = .ok (M, data)) :
    data = g.orientations ↔ g.gdim = g.tdim ∨ use ≠ none ∨ ∀ x ∈ g.orientations, x = 1 := by
  obtain ⟨nd, rows, nv, nodes, uvi, perm, hargs, -, -, -, hax, -, -, hor, -⟩ := importFd_ok h
  unfold fdOrientations at hor
  by_cases hd : g.gdim = g.tdim
  · rw [if_pos hd] at hor
    simp only [Except.ok.injEq, Prod.mk.injEq] at hor
    simp [hd, hor.2]
  rw [if_neg hd] at hor
  split at hor
  · rename_i hc
    unfold fdNodeAxes at hax
    rw [if_neg (by omega), if_pos hc.1] at hax
    omega
  split at hor
  · cases use with
    | none =>
      simp only [Except.ok.injEq, Prod.mk.injEq] at hor
      simp only [hd, ne_eq, not_true, false_or]
      rw [← hor.2]
      constructor
      · intro he x hx
        have : ∀ (l : List Int), l.map (fun x => x * 2 - 1) = l → ∀ x ∈ l, x = 1 := by
          intro l
          induction l with
          | nil => simp
          | cons a l ih =>
            intro hl x hx
            rw [List.map_cons, List.cons.injEq] at hl
            rcases List.mem_cons.1 hx with rfl | hx
            · omega
            · exact ih hl.2 x hx
        exact this _ he x hx
      · intro he
        conv_rhs => rw [← List.map_id g.orientations]
        apply List.map_congr_left
        intro x hx
        rw [he x hx]
        rfl
    | some u =>
      simp only at hor
      split at hor
      · simp at hor
      simp only [Except.ok.injEq, Prod.mk.injEq] at hor
      simp [hor.2]
  · simp at hor

/-- **C81.** No curve in the plane can be imported, although the documentation describes how: `np.transpose` is given
an array with one axis too many. -/
theorem C81_curves {faces : List (List Nat)} {vol : List (Option P) → List (List Nat) → List Int}
    {nodeFlip : List P → List P} {facial : List FdFacial} {g : FdGeo P} {use : Option (List Nat)}
    (hdim : g.tdim = 1 ∧ g.gdim = 2) : ∃ e, importFd faces vol nodeFlip facial g use = .error e := by
  cases h : importFd faces vol nodeFlip facial g use with
  | error e => exact ⟨e, rfl⟩
  | ok r =>
    obtain ⟨M, data⟩ := r
    obtain ⟨nd, rows, nv, nodes, uvi, perm, -, -, -, -, hax, -⟩ := importFd_ok h
    unfold fdNodeAxes at hax
    rw [if_neg (by omega), if_pos hdim.1] at hax
    omega

theorem fdArgsOk_iff {g : FdGeo P} {use : Option (List Nat)} : fdArgsOk g use = true ↔
    (∀ u, use = some u → u.Nodup ∧ ∀ c ∈ u, c < g.top.closures.length) ∧
    (g.gdim = 1 ∨ g.gdim = 2 ∨ g.gdim = 3) ∧ (g.gdim = g.tdim ∨ g.gdim = g.tdim + 1) := by
  unfold fdArgsOk
  cases use with
  | none => simp
  | some u => simp [and_assoc]

/-- **C81.** Which meshes can be imported: exactly volume meshes and surfaces in space, with a choice of cells that is
not empty and has no cell twice. -/
theorem C81_defined {faces : List (List Nat)} {vol : List (Option P) → List (List Nat) → List Int}
    {nodeFlip : List P → List P} {facial : List FdFacial} {g : FdGeo P} (hg : g.OK)
    (hvol : ∀ vs rows, (vol vs rows).length = rows.length) (use : Option (List Nat)) :
    (∃ r, importFd faces vol nodeFlip facial g use = .ok r) ↔
      (∀ u, use = some u → u ≠ [] ∧ u.Nodup ∧ ∀ c ∈ u, c < g.top.closures.length) ∧
      ((g.gdim = g.tdim ∧ (g.gdim = 1 ∨ g.gdim = 2 ∨ g.gdim = 3)) ∨ (g.tdim = 2 ∧ g.gdim = 3)) := by
  constructor
  · rintro ⟨⟨M, data⟩, h⟩
    obtain ⟨nd, rows, nv, nodes, uvi, perm, hargs, hnd, hren, -, hax, -⟩ := importFd_ok h
    obtain ⟨h1, h2, h3⟩ := fdArgsOk_iff.1 hargs
    refine ⟨fun u hu => ⟨?_, h1 u hu⟩, ?_⟩
    · rintro rfl
      subst hu
      have : nd.vertexIndices = [] := by
        refine List.eq_nil_iff_forall_not_mem.2 fun row hrow => ?_
        obtain ⟨k, hk⟩ := List.mem_iff_getElem?.1 hrow
        rw [C80_vertex_indices hg.top hnd] at hk
        simp [usedCell] at hk
      rw [this] at hren
      simp [fdRenumber] at hren
    · unfold fdNodeAxes at hax
      split_ifs at hax <;> omega
  · rintro ⟨hu, hdim⟩
    have hargs : fdArgsOk g use = true := fdArgsOk_iff.2 ⟨fun u h => (hu u h).2, by omega, by omega⟩
    obtain ⟨nd, hnd⟩ := (C80_defined hg.top use).2 fun l hl => (hu l hl).2.2
    have hax : fdNodeAxes g = 3 := by
      unfold fdNodeAxes
      split_ifs <;> omega
    have hcell : ∀ {k c : Nat}, usedCell use k = some c → (use ≠ none → c < g.top.closures.length) := by
      intro k c hk hne
      obtain ⟨u, rfl⟩ := Option.ne_none_iff_exists'.1 hne
      exact (hu u rfl).2.2 c (List.mem_of_getElem? hk)
    -- the renumbering
    have hren : ∃ rows nv, fdRenumber use g.numVertices (nd.vertexIndices.map fun row => row.map Int.toNat) =
        .ok (rows, nv) := by
      cases use with
      | none => exact ⟨_, _, rfl⟩
      | some u =>
        unfold fdRenumber
        simp only
        rw [if_neg]
        · exact ⟨_, _, rfl⟩
        · intro hnil
          obtain ⟨hne, -, hlt⟩ := hu u rfl
          obtain ⟨c, u', rfl⟩ := List.exists_cons_of_ne_nil hne
          have hc := hlt c List.mem_cons_self
          have h0 := C80_vertex_indices hg.top hnd 0
          simp only [usedCell, List.getElem?_cons_zero, Option.bind_some, List.getElem?_eq_getElem hc,
            Option.map_some] at h0
          have hlen := hg.top.count _ (List.getElem_mem hc)
          rw [hg.verts] at hlen
          have hm := List.mem_of_getElem? h0
          have : (((g.top.dmpVerts g.top.closures[c]).map g.top.vertexNumber).map Int.toNat) = [] := by
            refine List.eq_nil_iff_forall_not_mem.2 fun x hx => ?_
            have : x ∈ (nd.vertexIndices.map fun row => row.map Int.toNat).flatten :=
              List.mem_flatten.2 ⟨_, List.mem_map_of_mem hm, hx⟩
            rw [hnil] at this
            simp at this
          simp only [List.map_eq_nil_iff] at this
          rw [this] at hlen
          simp at hlen
    obtain ⟨rows, nv, hren⟩ := hren
    obtain ⟨num, hr, hid, -, hused⟩ := fdRenumber_spec hren
    -- the nodes
    have hnodes : ∃ nodes, fdNodes g use = some nodes ∧ ∀ row ∈ nodes, ∃ ns ∈ g.cellNodes, row.length = ns.length := by
      have hls : ∃ ls : List (List Nat), (match use with
          | none => some g.cellNodes
          | some u => u.mapM fun c => g.cellNodes[c]?) = some ls ∧ ∀ ns ∈ ls, ns ∈ g.cellNodes := by
        cases use with
        | none => exact ⟨_, rfl, fun _ h => h⟩
        | some u =>
          obtain ⟨ls, hls⟩ := mapM_isSome_of (f := fun c => g.cellNodes[c]?) (l := u) fun c hc =>
            ⟨_, List.getElem?_eq_getElem (by rw [hg.cells]; exact (hu u rfl).2.2 c hc)⟩
          refine ⟨ls, hls, fun ns hns => ?_⟩
          obtain ⟨k, hk⟩ := List.mem_iff_getElem?.1 hns
          rw [mapM_getElem?_bind hls] at hk
          obtain ⟨c, _, hc⟩ := Option.bind_eq_some_iff.1 hk
          exact List.mem_of_getElem? hc
      obtain ⟨ls, hls, hmem⟩ := hls
      obtain ⟨nodes, hn⟩ := mapM_isSome_of (f := fun row : List Nat => row.mapM fun n => g.coords[n]?) (l := ls)
        fun ns hns => mapM_isSome_of fun n hn =>
          ⟨_, List.getElem?_eq_getElem (hg.nodes ns (hmem ns hns) n hn)⟩
      refine ⟨nodes, by unfold fdNodes; rw [hls]; exact hn, fun row hrow => ?_⟩
      obtain ⟨k, hk⟩ := List.mem_iff_getElem?.1 hrow
      rw [mapM_getElem?_bind hn] at hk
      obtain ⟨ns, hns, hrow⟩ := Option.bind_eq_some_iff.1 hk
      exact ⟨ns, hmem ns (List.mem_of_getElem? hns), (mapM_getElem?_some hrow).1⟩
    obtain ⟨nodes, hnodes, hnl⟩ := hnodes
    have huvi : ∃ uvi, fdUnitVertices g.vertexDofs = some uvi := by
      apply mapM_isSome_of
      intro ds hds
      obtain ⟨n, rfl, _⟩ := hg.single ds hds
      exact ⟨n, rfl⟩
    obtain ⟨uvi, huvi⟩ := huvi
    have hul : uvi.length = g.tdim + 1 := by rw [(mapM_getElem?_some huvi).1, hg.dofs]
    have hun : ∀ n ∈ uvi, ∀ ns ∈ g.cellNodes, n < ns.length := by
      intro n hn ns hns
      obtain ⟨l, hl⟩ := List.mem_iff_getElem?.1 hn
      rw [mapM_getElem?_bind huvi] at hl
      obtain ⟨ds, hds, hl⟩ := Option.bind_eq_some_iff.1 hl
      obtain ⟨n', rfl, hlt⟩ := hg.single ds (List.mem_of_getElem? hds)
      simp only [Option.some.injEq] at hl
      subst hl
      exact hlt ns hns
    have hrowlen : ∀ row ∈ nd.vertexIndices, row.length = g.tdim + 1 ∧ ∀ x ∈ row, 0 ≤ x ∧ x < g.numVertices := by
      intro row hrow
      obtain ⟨k, hk⟩ := List.mem_iff_getElem?.1 hrow
      rw [C80_vertex_indices hg.top hnd] at hk
      obtain ⟨c, _, hk⟩ := Option.bind_eq_some_iff.1 hk
      obtain ⟨cl, hcl, rfl⟩ := Option.map_eq_some_iff.1 hk
      refine ⟨by rw [List.length_map, hg.top.count cl (List.mem_of_getElem? hcl), hg.verts], ?_⟩
      intro x hx
      obtain ⟨d, hd, rfl⟩ := List.mem_map.1 hx
      obtain ⟨h1, h2⟩ := dmpVerts_range hd
      exact ⟨hg.top.nonneg d h1 h2, hg.numbers d h1 h2⟩
    have hverts : ∃ vs, recordVertices uvi nv (rows.zip nodes) = some vs := by
      apply recordVertices_defined
      rintro ⟨row, nrow⟩ hc
      have hc1 := (List.of_mem_zip hc).1
      have hc2 := (List.of_mem_zip hc).2
      rw [hr] at hc1
      obtain ⟨q, hq, hqr⟩ := List.mem_map.1 hc1
      subst hqr
      obtain ⟨old, hold, rfl⟩ := List.mem_map.1 hq
      obtain ⟨hlen, hx⟩ := hrowlen old hold
      refine ⟨?_, by simp [hlen, hul], ?_⟩
      · intro v hv
        obtain ⟨w, hw, rfl⟩ := List.mem_map.1 hv
        obtain ⟨x, hxm, rfl⟩ := List.mem_map.1 hw
        by_cases hne : use = none
        · obtain ⟨h1, h2⟩ := hid hne
          rw [h1, h2, id]
          have := hx x hxm
          omega
        · exact (hused hne _).2 ⟨_, List.mem_flatten.2 ⟨_, hq, hw⟩, rfl⟩
      · intro n hn
        obtain ⟨ns, hns, hl⟩ := hnl nrow hc2
        simp only
        rw [hl]
        exact hun n hn ns hns
    obtain ⟨vs, hvs⟩ := hverts
    have hrl : rows.length = nd.vertexIndices.length := by rw [hr, List.length_map, List.length_map]
    have hcount : rows.length = (match use with | none => g.top.closures.length | some u => u.length) := by
      obtain ⟨cls, hcls, hvi, -⟩ := fdNodalInfo_some hnd
      rw [hrl, (mapM_getElem?_some hvi).1]
      cases use with
      | none => simp only [FdTopology.usedClosures, Option.some.injEq] at hcls; rw [← hcls]
      | some u => simp only [FdTopology.usedClosures] at hcls; rw [(mapM_getElem?_some hcls).1]
    have hor : ∃ orient data, fdOrientations g use rows.length (vol vs rows) = .ok (orient, data) ∧
        orient.length = rows.length := by
      unfold fdOrientations
      by_cases hd : g.gdim = g.tdim
      · rw [if_pos hd]; exact ⟨_, _, rfl, hvol vs rows⟩
      · have h23 : g.tdim = 2 ∧ g.gdim = 3 := by omega
        rw [if_neg hd, if_neg (by omega), if_pos h23]
        have hol := hg.orient (by omega)
        cases use with
        | none => exact ⟨_, _, rfl, by rw [List.length_map, hol]; exact hcount.symm⟩
        | some u =>
          obtain ⟨os, hos⟩ := mapM_isSome_of (f := fun c => g.orientations[c]?) (l := u) fun c hc =>
            ⟨_, List.getElem?_eq_getElem (by rw [hol]; exact (hu u rfl).2.2 c hc)⟩
          simp only [hos]
          exact ⟨_, _, rfl, by rw [List.length_map, (mapM_getElem?_some hos).1]; exact hcount.symm⟩
    obtain ⟨orient, data, hor, hol⟩ := hor
    have hperm : ∃ perm, flipPermutation (.simplex g.tdim) = .ok perm := by
      obtain ⟨n, hn⟩ : ∃ n, g.tdim = n + 1 := ⟨g.tdim - 1, by omega⟩
      rw [hn]
      exact ⟨_, rfl⟩
    obtain ⟨perm, hperm⟩ := hperm
    unfold importFd
    rw [if_neg (by simp [hargs])]
    simp only [hnd, hren, hnodes]
    rw [if_neg (by simp [hax])]
    simp only [huvi, hvs, hor, hperm]
    rw [if_neg (by simp [hol])]
    exact ⟨_, rfl⟩

/-! ## Examples -/

/-- Two triangles in space with a common edge, and four coordinates. (Example, no code.) -/
def exFdGeo : FdGeo (Int × Int × Int) where
  top := exFdTopology
  tdim := 2
  gdim := 3
  numVertices := 4
  cellNodes := [[0, 1, 2], [3, 2, 1]]
  coords := [(0, 0, 0), (1, 0, 0), (0, 1, 0), (1, 1, 5)]
  vertexDofs := [[0], [1], [2]]
  orientations := [0, 1]

/-- The faces of a triangle as in modepy. (Example, no code.) -/
def exTriFaces : List (List Nat) := [[0, 1], [2, 0], [1, 2]]

example : SimplexFaces 3 exTriFaces := by
  refine ⟨fun f => 2 - f, ?_, ?_, ?_⟩
  · intro f face h
    match f, h with
    | 0, h => cases h; simp; omega
    | 1, h => cases h; simp; omega
    | 2, h => cases h; simp; omega
  · intro f f' h1 h2
    simp only [exTriFaces, List.length_cons, List.length_nil] at h1 h2 ⊢
    omega
  · intro v hv
    refine ⟨2 - v, ?_, by simp only; omega⟩
    simp only [exTriFaces, List.length_cons, List.length_nil]
    omega

/-- Facial adjacency of the two triangles before the flips: they meet in Firedrake's facet 0 of both, and have
boundary faces. (Example, no code.) -/
def exFdFacial : List FdFacial :=
  [.interior [((0, 2), (1, 2)), ((1, 2), (0, 2))], .boundary 1 [(0, 0), (0, 1), (1, 0), (1, 1)]]

/-- The import of the example: the first triangle is flipped, its first two vertices and its faces 1 and 2 are
exchanged. -/
example : importFd exTriFaces (fun _ rows => rows.map fun _ => 1) (fun l => l) exFdFacial exFdGeo none = .ok
    ({ vertices := [some (1, 0, 0), some (0, 1, 0), some (1, 1, 5), some (0, 0, 0)]
       rows := [[0, 3, 1], [2, 1, 0]]
       nodes := [[(0, 0, 0), (1, 0, 0), (0, 1, 0)], [(1, 1, 5), (0, 1, 0), (1, 0, 0)]]
       starts := [0, 2, 4]
       neighbors := [1, 1, 0, 0]
       facial := [.interior [((0, 1), (1, 2)), ((1, 2), (0, 1))], .boundary 1 [(0, 0), (0, 2), (1, 0), (1, 1)]]
       orient := [-1, 1] }, [-1, 1]) := by decide +kernel

example : importFd exTriFaces (fun _ rows => rows.map fun _ => 1) (fun l => l) [] exFdGeo (some [1]) = .ok
    ({ vertices := [some (1, 0, 0), some (0, 1, 0), some (1, 1, 5)]
       rows := [[2, 1, 0]]
       nodes := [[(1, 1, 5), (0, 1, 0), (1, 0, 0)]]
       starts := [0, 0]
       neighbors := []
       facial := []
       orient := [1] }, [0, 1]) := by decide +kernel

theorem exFdTopology_ok : exFdTopology.OK := by
  constructor
  · decide
  · decide
  · intro d d' h1 h2 h3 h4 h
    simp only [exFdTopology] at *
    split at h <;> split at h <;> omega
  · intro d h1 h2
    simp only [exFdTopology] at *
    split <;> omega

theorem exFdGeo_ok : exFdGeo.OK where
  top := exFdTopology_ok
  verts := rfl
  cells := rfl
  nodes := by decide
  dofs := rfl
  single := by
    intro ds hds
    simp only [exFdGeo, List.mem_cons, List.not_mem_nil, or_false] at hds
    rcases hds with rfl | rfl | rfl
    · exact ⟨0, rfl, by decide⟩
    · exact ⟨1, rfl, by decide⟩
    · exact ⟨2, rfl, by decide⟩
  numbers := by
    intro d h1 h2
    simp only [exFdGeo, exFdTopology] at *
    split <;> omega
  orient := fun _ => rfl

example : exFdGeo.Continuous := by
  have key : ∀ k l v x, exFdGeo.IsVertex none k l v → exFdGeo.PointAt none k l x →
      x = if v = 3 then (0, 0, 0) else if v = 0 then (1, 0, 0) else if v = 1 then (0, 1, 0) else (1, 1, 5) := by
    rintro k l v x ⟨c, cl, d, hc, hcl, hd, rfl⟩ ⟨c', ns, n, i, hc', hns, hn, hi, hx⟩
    simp only [usedCell, Option.some.injEq] at hc hc'
    subst hc hc'
    have hk : k < 2 := (List.getElem?_eq_some_iff.1 hcl).1
    have hl : l < 3 := (List.getElem?_eq_some_iff.1 hn).1
    have hk' : k = 0 ∨ k = 1 := by omega
    have hl' : l = 0 ∨ l = 1 ∨ l = 2 := by omega
    rcases hk' with rfl | rfl <;> cases hcl <;> cases hns <;> rcases hl' with rfl | rfl | rfl <;>
      cases hn <;> cases hi <;> cases hx <;> cases hd <;> decide
  intro k l k' l' v x x' h1 h2 h3 h4
  rw [key k l v x h1 h3, key k' l' v x' h2 h4]

/-- **C81.** Importing a surface changes the orientations stored in the Firedrake mesh. -/
theorem C81_firedrake_data_counterexample : ∃ (faces : List (List Nat)) (facial : List FdFacial)
    (g : FdGeo (Int × Int × Int)) (M : FdImported (Int × Int × Int)) (data : List Int), g.OK ∧
    (∀ x ∈ g.orientations, x = 0 ∨ x = 1) ∧
    importFd faces (fun _ rows => rows.map fun _ => 1) (fun l => l) facial g none = .ok (M, data) ∧
    data ≠ g.orientations := by
  refine ⟨exTriFaces, [], exFdGeo,
    { vertices := [some (1, 0, 0), some (0, 1, 0), some (1, 1, 5), some (0, 0, 0)]
      rows := [[0, 3, 1], [2, 1, 0]]
      nodes := [[(0, 0, 0), (1, 0, 0), (0, 1, 0)], [(1, 1, 5), (0, 1, 0), (1, 0, 0)]]
      starts := [0, 2, 4]
      neighbors := [1, 1, 0, 0]
      facial := []
      orient := [-1, 1] }, [-1, 1], exFdGeo_ok, by decide, by decide +kernel, by decide⟩

end Meshmode
