import Verif.Mesh.BBox
import Verif.Mesh.MergeProps
import Mathlib.Data.Sym.Sym2
import Mathlib.Tactic.Linarith
import Mathlib.Tactic.FieldSimp
import Mathlib.Tactic.Ring

/-!
# Drawing a mesh (C108)

`draw_2d_mesh` and `draw_curve` (meshmode/mesh/visualization.py:51-209), over an ordered field. A drawing is
the list of the calls to matplotlib, in order.
-/
namespace Meshmode

variable {K : Type} [Field K] [LinearOrder K] {N A : Type}

/-! ## Model -/

/-- What a number in the drawing stands for (told apart by size and colour of the text).
Code: meshmode/mesh/visualization.py:105-107, 111-113, 163-165. -/
inductive TextKind where
  | element | vertex | face
  deriving DecidableEq, Repr

/-- `Path.MOVETO`, `Path.LINETO` and `Path.CLOSEPOLY`. Code: meshmode/mesh/visualization.py:84-90. -/
inductive PathCode where
  | moveto | lineto | closepoly
  deriving DecidableEq, Repr

/-- The calls to matplotlib. Code: meshmode/mesh/visualization.py:95, 105, 111, 148, 163, 170-171. Style
arguments are not modelled. -/
inductive DrawCmd (K : Type) where
  /-- `add_patch(PathPatch(Path(verts, codes)))` -/
  | path (data : List (PathCode × (Fin 2 → K)))
  /-- `pt.text(x, y, label)` -/
  | text (kind : TextKind) (pos : Fin 2 → K) (label : List Char)
  /-- `pt.arrow(x, y, dx, dy)` -/
  | arrow (start vec : Fin 2 → K)
  /-- `pt.xlim`, `pt.ylim` -/
  | limits (lo hi : List K)

/-- `mesh.vertices[:, el]`, meshmode/mesh/visualization.py:77, 135-136, 155; `none` is an exception (no
vertices, or a vertex number that is too large). -/
def rowPoints (vertices : Option (List (Fin 2 → K))) (row : List Nat) : Option (List (Fin 2 → K)) := do
  let vs ← vertices
  row.mapM fun v => vs[v]?

/-- The mean of some points, meshmode/mesh/visualization.py:98, 138-139, 156, 161. For no points numpy gives
`nan`. -/
def meanPt (ps : List (Fin 2 → K)) : Fin 2 → K := fun j => (ps.map fun p => p j).sum / (ps.length : K)

/-- The order in which the corners are drawn, meshmode/mesh/visualization.py:80-82. -/
def drawnPoints (tensor : Bool) (ev : List (Fin 2 → K)) : Option (List (Fin 2 → K)) :=
  if tensor then [0, 1, 3, 2].mapM fun k => ev[k]? else some ev

/-- `pathdata`, meshmode/mesh/visualization.py:84-90; `none` is the `IndexError` for no corners. -/
def outline : List (Fin 2 → K) → Option (List (PathCode × (Fin 2 → K)))
  | [] => none
  | p :: ps => some ((.moveto, p) :: ps.map (fun q => (.lineto, q)) ++ [(.closepoly, p)])

/-- `el_label`, meshmode/mesh/visualization.py:100-103. -/
def elementLabel (ngroups igrp iel : Nat) : List Char :=
  if ngroups = 1 then Nat.toDigits 10 iel else Nat.toDigits 10 igrp ++ ':' :: Nat.toDigits 10 iel

/-- The calls for one element, meshmode/mesh/visualization.py:77-107. -/
def drawElement (vertices : Option (List (Fin 2 → K))) (numbers : Bool) (ngroups : Nat) (tensor : Bool)
    (igrp iel : Nat) (row : List Nat) : Option (List (DrawCmd K)) := do
  let ev0 ← rowPoints vertices row
  let ev ← drawnPoints tensor ev0
  let o ← outline ev
  pure (.path o :: if numbers then [.text .element (meanPt ev) (elementLabel ngroups igrp iel)] else [])

/-- The two nested loops over groups and elements, meshmode/mesh/visualization.py:75-76: group number, element
number, whether the group is a `TensorProductElementGroup` of dimension two, and vertex numbers. -/
def indexedElements (isTensor2 : ElGroup N → Bool) (groups : List (ElGroup N)) :
    List (Nat × Nat × Bool × List Nat) :=
  (groups.zipIdx.map fun gk => gk.1.vertexIndices.zipIdx.map fun rk => (gk.2, rk.2, isTensor2 gk.1, rk.1)).flatten

/-- The calls for all elements, meshmode/mesh/visualization.py:75-107. -/
def drawElements (isTensor2 : ElGroup N → Bool) (numbers : Bool) (m : FMesh N (Fin 2 → K) A) :
    Option (List (DrawCmd K)) := do
  let css ← (indexedElements isTensor2 m.groups).mapM fun x =>
    drawElement m.vertices numbers m.groups.length x.2.2.1 x.1 x.2.1 x.2.2.2
  pure css.flatten

/-- The calls for the vertex numbers, meshmode/mesh/visualization.py:110-113; `none` is the `AttributeError`
for no vertices. -/
def drawVertexNumbers (vertices : Option (List (Fin 2 → K))) : Option (List (DrawCmd K)) := do
  let vs ← vertices
  pure (vs.zipIdx.map fun vk => .text .vertex vk.1 (Nat.toDigits 10 vk.2))

/-- `global_iel_to_group_and_iel`, meshmode/mesh/visualization.py:116-123; `none` is
`ValueError("invalid element nr")`. -/
def locateElement : List (ElGroup N) → Nat → Option (ElGroup N × Nat)
  | [], _ => none
  | g :: gs, n => if n < g.nelements then some (g, n) else locateElement gs (n - g.nelements)

/-- The corners of the element with a mesh-wide number, meshmode/mesh/visualization.py:132-136. -/
def elementPoints (m : FMesh N (Fin 2 → K) A) (e : Nat) : Option (List (Fin 2 → K)) := do
  let gi ← locateElement m.groups e
  let row ← gi.1.vertexIndices[gi.2]?
  rowPoints m.vertices row

/-- `dx`, meshmode/mesh/visualization.py:141. -/
def arrowDx (c nc : Fin 2 → K) : Fin 2 → K := fun j => nc j - c j

/-- `mag`, meshmode/mesh/visualization.py:144. -/
def arrowMag (dx : Fin 2 → K) : K := max |dx 0| |dx 1|

/-- The call for one pair of neighbours, meshmode/mesh/visualization.py:141-148: `r` and `r'` are the two
results of `rng.random(2)`. -/
def arrowCmd (c nc r r' : Fin 2 → K) : DrawCmd K :=
  let dx := arrowDx c nc
  let mag := arrowMag dx
  .arrow (fun j => c j + 3 / 20 * dx j + 1 / 20 * (r j - 1 / 2) * mag)
    (fun j => 7 / 10 * (dx j + 1 / 20 * (r' j - 1 / 2) * mag))

/-- The body of the loop over neighbours, meshmode/mesh/visualization.py:130-150; the `k`-th arrow uses the
random numbers `4k` to `4k+3`. `none` is an exception, among them the assertion that no element is its own
neighbour. -/
def drawArrow (m : FMesh N (Fin 2 → K) A) (rng : Nat → K) (pk : (Nat × Nat) × Nat) : Option (DrawCmd K) :=
  if pk.1.1 = pk.1.2 then none else do
    let ev ← elementPoints m pk.1.1
    let nv ← elementPoints m pk.1.2
    pure (arrowCmd (meanPt ev) (meanPt nv) (fun j => rng (4 * pk.2 + j.1)) (fun j => rng (4 * pk.2 + 2 + j.1)))

/-- The pairs visited by the two loops, meshmode/mesh/visualization.py:128-129. -/
def adjacentPairs (adj : List Nat × List Nat) (n : Nat) : Option (List (Nat × Nat)) := do
  let rows ← (List.range n).mapM fun e => (csrRow adj.1 adj.2 e).map fun row => row.map fun nb => (e, nb)
  pure rows.flatten

/-- The arrows, meshmode/mesh/visualization.py:125-150, for `mesh.nodal_adjacency`. -/
def drawArrows (m : FMesh N (Fin 2 → K) A) (rng : Nat → K) (adj : List Nat × List Nat) :
    Option (List (DrawCmd K)) := do
  let pairs ← adjacentPairs adj (nelements (m.groups.map ElGroup.nelements))
  pairs.zipIdx.mapM (drawArrow m rng)

/-- `cnx = mesh.nodal_adjacency`, meshmode/mesh/visualization.py:125; `none` is an exception. -/
def accessValue {α : Type} : Access α → Option α
  | .ok a => some a
  | _ => none

/-- `face_center`, meshmode/mesh/visualization.py:159-161. -/
def faceLabelPos (ev fv : List (Fin 2 → K)) : Fin 2 → K :=
  fun j => 3 / 10 * meanPt ev j + 7 / 10 * meanPt fv j

/-- The number of one face, meshmode/mesh/visualization.py:158-165. -/
def drawFaceNumber (ev : List (Fin 2 → K)) (fk : List Nat × Nat) : Option (DrawCmd K) := do
  let fv ← fk.1.mapM fun k => ev[k]?
  pure (.text .face (faceLabelPos ev fv) (Nat.toDigits 10 fk.2))

/-- The face numbers of one element, meshmode/mesh/visualization.py:155-165. -/
def drawElementFaces (m : FMesh N (Fin 2 → K) A) (g : ElGroup N) (row : List Nat) :
    Option (List (DrawCmd K)) := do
  let ev ← rowPoints m.vertices row
  g.fvi.zipIdx.mapM (drawFaceNumber ev)

/-- All face numbers, meshmode/mesh/visualization.py:153-165. -/
def drawFaceNumbers (m : FMesh N (Fin 2 → K) A) : Option (List (DrawCmd K)) := do
  let css ← (m.groups.map fun g => g.vertexIndices.map fun row => (g, row)).flatten.mapM fun gr =>
    drawElementFaces m gr.1 gr.2
  pure css.flatten

/-- The plot limits, meshmode/mesh/visualization.py:168-171. -/
def drawLimits (m : FMesh N (Fin 2 → K) A) : Option (List (DrawCmd K)) :=
  match findBoundingBox m with
  | .ok b => some [.limits b.1 b.2]
  | .error _ => none

/-- The flags. Code: meshmode/mesh/visualization.py:54-58. -/
structure DrawOpts where
  vertexNumbers : Bool := true
  elementNumbers : Bool := true
  nodalAdjacency : Bool := false
  faceNumbers : Bool := false
  boundingBox : Bool := false

/-- A part of the drawing that is only made if a flag is set.
Code: meshmode/mesh/visualization.py:109, 115, 152, 167. -/
def drawIf (flag : Bool) (part : Option (List (DrawCmd K))) : Option (List (DrawCmd K)) :=
  if flag then part else some []

/-- `draw_2d_mesh`, meshmode/mesh/visualization.py:51-171; `none` is an exception, among them the assertion
about the ambient dimension. See `FMesh.nodal` for `iter`. -/
def draw2d (isTensor2 : ElGroup N → Bool) (iter : List Nat → List Nat) (rng : Nat → K) (o : DrawOpts)
    (m : FMesh N (Fin 2 → K) A) : Option (List (DrawCmd K)) :=
  if m.ambientDim ≠ 2 then none else do
    let els ← drawElements isTensor2 o.elementNumbers m
    let verts ← drawIf o.vertexNumbers (drawVertexNumbers m.vertices)
    let arrows ← drawIf o.nodalAdjacency ((accessValue (m.nodal iter)).bind (drawArrows m rng))
    let faces ← drawIf o.faceNumbers (drawFaceNumbers m)
    let box ← drawIf o.boundingBox (drawLimits m)
    pure (els ++ verts ++ arrows ++ faces ++ box)

/-! ## Specification -/

/-- The outlines in a drawing. (Specification or proof vocabulary, no code.) -/
def outlinesOf (cmds : List (DrawCmd K)) : List (List (PathCode × (Fin 2 → K))) :=
  cmds.filterMap fun c => match c with | .path d => some d | _ => none

/-- The numbers of one kind in a drawing. (Specification or proof vocabulary, no code.) -/
def textsOf (k : TextKind) (cmds : List (DrawCmd K)) : List ((Fin 2 → K) × List Char) :=
  cmds.filterMap fun c => match c with | .text k' p l => if k' = k then some (p, l) else none | _ => none

/-- The arrows in a drawing. (Specification or proof vocabulary, no code.) -/
def arrowsOf (cmds : List (DrawCmd K)) : List ((Fin 2 → K) × (Fin 2 → K)) :=
  cmds.filterMap fun c => match c with | .arrow s v => some (s, v) | _ => none

/-- The limits in a drawing. (Specification or proof vocabulary, no code.) -/
def limitsOf (cmds : List (DrawCmd K)) : List (List K × List K) :=
  cmds.filterMap fun c => match c with | .limits a b => some (a, b) | _ => none

/-- The lines a path consists of: from each point to the next.
(Specification or proof vocabulary, no code.) -/
def pathLines (d : List (PathCode × (Fin 2 → K))) : List (Sym2 (Fin 2 → K)) :=
  (d.map Prod.snd).zipWith (fun p q => s(p, q)) (d.map Prod.snd).tail

/-- `ev` are the corners of an element with the given vertex numbers.
(Specification or proof vocabulary, no code.) -/
def Corners (m : FMesh N (Fin 2 → K) A) (row : List Nat) (ev : List (Fin 2 → K)) : Prop :=
  ∃ vs, m.vertices = some vs ∧ row.map (fun v => vs[v]?) = ev.map some

/-- The sides of a polygon with the given corners. (Specification or proof vocabulary, no code.) -/
def cyclicLines (ev : List (Fin 2 → K)) : List (Sym2 (Fin 2 → K)) :=
  ev.zipWith (fun p q => s(p, q)) (ev.rotate 1)

/-- The lines between the two vertices of each face. (Specification or proof vocabulary, no code.) -/
def faceLines (fvi : List (List Nat)) (ev : List (Fin 2 → K)) : List (Sym2 (Fin 2 → K)) :=
  fvi.filterMap fun ref => match ref with
    | [a, b] => match ev[a]?, ev[b]? with
      | some p, some q => some s(p, q)
      | _, _ => none
    | _ => none

/-! ## Lemmas -/

/-- The kind of a call, as a number. (Specification or proof vocabulary, no code.) -/
def DrawCmd.tag : DrawCmd K → Nat
  | .path _ => 0
  | .text .element _ _ => 1
  | .text .vertex _ _ => 2
  | .text .face _ _ => 3
  | .arrow _ _ => 4
  | .limits _ _ => 5

omit [Field K] [LinearOrder K] in
theorem outlinesOf_nil {l : List (DrawCmd K)} (h : ∀ c ∈ l, c.tag ≠ 0) : outlinesOf l = [] := by
  rw [outlinesOf, List.filterMap_eq_nil_iff]
  intro c hc
  have := h c hc
  cases c <;> simp_all [DrawCmd.tag]

/-- The tag of numbers of a kind. (Specification or proof vocabulary, no code.) -/
def TextKind.tag : TextKind → Nat
  | .element => 1
  | .vertex => 2
  | .face => 3

omit [Field K] [LinearOrder K] in
theorem textsOf_nil {k : TextKind} {l : List (DrawCmd K)} (h : ∀ c ∈ l, c.tag ≠ k.tag) : textsOf k l = [] := by
  rw [textsOf, List.filterMap_eq_nil_iff]
  intro c hc
  have := h c hc
  cases c with
  | text k' p t =>
    have hk : k' ≠ k := by
      rintro rfl
      cases k' <;> exact this rfl
    simp [hk]
  | _ => rfl

omit [Field K] [LinearOrder K] in
theorem arrowsOf_nil {l : List (DrawCmd K)} (h : ∀ c ∈ l, c.tag ≠ 4) : arrowsOf l = [] := by
  rw [arrowsOf, List.filterMap_eq_nil_iff]
  intro c hc
  have := h c hc
  cases c <;> simp_all [DrawCmd.tag]

omit [Field K] [LinearOrder K] in
theorem limitsOf_nil {l : List (DrawCmd K)} (h : ∀ c ∈ l, c.tag ≠ 5) : limitsOf l = [] := by
  rw [limitsOf, List.filterMap_eq_nil_iff]
  intro c hc
  have := h c hc
  cases c <;> simp_all [DrawCmd.tag]

theorem mapM_mem {α β : Type} {f : α → Option β} {l : List α} {r : List β} (h : l.mapM f = some r) {b : β}
    (hb : b ∈ r) : ∃ a ∈ l, f a = some b := by
  obtain ⟨i, hi⟩ := List.mem_iff_getElem?.1 hb
  obtain ⟨hlen, hall⟩ := mapM_getElem?_some h
  have hlt : i < l.length := by rw [← hlen]; exact (List.getElem?_eq_some_iff.1 hi).1
  obtain ⟨b', h1, h2⟩ := hall i l[i] (List.getElem?_eq_getElem hlt)
  rw [hi] at h1
  cases h1
  exact ⟨_, List.getElem_mem hlt, h2⟩

omit [LinearOrder K] in
theorem tag_elements {isT : ElGroup N → Bool} {nb : Bool} {m : FMesh N (Fin 2 → K) A} {els : List (DrawCmd K)}
    (h : drawElements isT nb m = some els) : ∀ c ∈ els, c.tag = 0 ∨ c.tag = 1 := by
  obtain ⟨css, hc, h⟩ := Option.bind_eq_some_iff.1 h
  simp only [Option.pure_def, Option.some.injEq] at h
  subst h
  intro c hc'
  obtain ⟨cs, hcs, hcc⟩ := List.mem_flatten.1 hc'
  obtain ⟨x, -, hx⟩ := mapM_mem hc hcs
  obtain ⟨ev0, -, hx⟩ := Option.bind_eq_some_iff.1 hx
  obtain ⟨ev, -, hx⟩ := Option.bind_eq_some_iff.1 hx
  obtain ⟨o, -, hx⟩ := Option.bind_eq_some_iff.1 hx
  simp only [Option.pure_def, Option.some.injEq] at hx
  subst hx
  rcases List.mem_cons.1 hcc with rfl | hcc
  · exact Or.inl rfl
  · cases nb
    · simp at hcc
    · simp only [if_true, List.mem_singleton] at hcc
      subst hcc
      exact Or.inr rfl

omit [Field K] [LinearOrder K] in
theorem tag_vertices {vs : Option (List (Fin 2 → K))} {l : List (DrawCmd K)}
    (h : drawVertexNumbers vs = some l) : ∀ c ∈ l, c.tag = 2 := by
  obtain ⟨v, -, h⟩ := Option.bind_eq_some_iff.1 h
  simp only [Option.pure_def, Option.some.injEq] at h
  subst h
  intro c hc
  obtain ⟨x, -, rfl⟩ := List.mem_map.1 hc
  rfl

theorem drawArrow_eq {m : FMesh N (Fin 2 → K) A} {rng : Nat → K} {e e' k : Nat} {c : DrawCmd K}
    (h : drawArrow m rng ((e, e'), k) = some c) :
    e ≠ e' ∧ ∃ ev nv, elementPoints m e = some ev ∧ elementPoints m e' = some nv ∧
      c = arrowCmd (meanPt ev) (meanPt nv) (fun j => rng (4 * k + j.1)) (fun j => rng (4 * k + 2 + j.1)) := by
  unfold drawArrow at h
  split at h
  · simp at h
  · rename_i hne
    obtain ⟨ev, h1, h⟩ := Option.bind_eq_some_iff.1 h
    obtain ⟨nv, h2, h⟩ := Option.bind_eq_some_iff.1 h
    simp only [Option.pure_def, Option.some.injEq] at h
    exact ⟨hne, ev, nv, h1, h2, h.symm⟩

theorem tag_arrows {m : FMesh N (Fin 2 → K) A} {rng : Nat → K} {adj : List Nat × List Nat}
    {l : List (DrawCmd K)} (h : drawArrows m rng adj = some l) : ∀ c ∈ l, c.tag = 4 := by
  obtain ⟨pairs, -, h⟩ := Option.bind_eq_some_iff.1 h
  intro c hc
  obtain ⟨⟨⟨e, e'⟩, k⟩, -, hx⟩ := mapM_mem h hc
  obtain ⟨-, ev, nv, -, -, rfl⟩ := drawArrow_eq hx
  rfl

omit [LinearOrder K] in
theorem drawFaces_mem {m : FMesh N (Fin 2 → K) A} {l : List (DrawCmd K)} (h : drawFaceNumbers m = some l)
    {c : DrawCmd K} (hc : c ∈ l) : ∃ g ∈ m.groups, ∃ row ∈ g.vertexIndices, ∃ ev fv f ref,
      rowPoints m.vertices row = some ev ∧ g.fvi[f]? = some ref ∧ ref.mapM (fun k => ev[k]?) = some fv ∧
      c = .text .face (faceLabelPos ev fv) (Nat.toDigits 10 f) := by
  obtain ⟨css, hcs, h⟩ := Option.bind_eq_some_iff.1 h
  simp only [Option.pure_def, Option.some.injEq] at h
  subst h
  obtain ⟨cs, hcs', hcc⟩ := List.mem_flatten.1 hc
  obtain ⟨⟨g, row⟩, hgr, hx⟩ := mapM_mem hcs hcs'
  simp only [List.mem_flatten, List.mem_map] at hgr
  obtain ⟨lg, ⟨g', hg', rfl⟩, hr⟩ := hgr
  obtain ⟨row', hrow, he⟩ := List.mem_map.1 hr
  cases he
  obtain ⟨ev, hev, hx⟩ := Option.bind_eq_some_iff.1 hx
  obtain ⟨⟨ref, f⟩, hrf, hx⟩ := mapM_mem hx hcc
  obtain ⟨fv, hfv, hx⟩ := Option.bind_eq_some_iff.1 hx
  simp only [Option.pure_def, Option.some.injEq] at hx
  have hf : g.fvi[f]? = some ref := by
    obtain ⟨i, hi⟩ := List.mem_iff_getElem?.1 hrf
    rw [List.getElem?_zipIdx] at hi
    obtain ⟨a, ha, hi⟩ := Option.map_eq_some_iff.1 hi
    simp only [Nat.zero_add, Prod.mk.injEq] at hi
    obtain ⟨rfl, rfl⟩ := hi
    exact ha
  exact ⟨g, hg', row, hrow, ev, fv, f, ref, hev, hf, hfv, hx.symm⟩

omit [LinearOrder K] in
theorem tag_faces {m : FMesh N (Fin 2 → K) A} {l : List (DrawCmd K)} (h : drawFaceNumbers m = some l) :
    ∀ c ∈ l, c.tag = 3 := by
  intro c hc
  obtain ⟨_, _, _, _, _, _, _, _, _, _, _, rfl⟩ := drawFaces_mem h hc
  rfl

omit [Field K] in
theorem tag_limits {m : FMesh N (Fin 2 → K) A} {l : List (DrawCmd K)} (h : drawLimits m = some l) :
    ∀ c ∈ l, c.tag = 5 := by
  unfold drawLimits at h
  split at h
  · cases h
    intro c hc
    rw [List.mem_singleton] at hc
    subst hc
    rfl
  · simp at h

omit [Field K] [LinearOrder K] in
theorem tag_if {flag : Bool} {part : Option (List (DrawCmd K))} {l : List (DrawCmd K)} {n : Nat}
    (h : drawIf flag part = some l) (hp : ∀ l, part = some l → ∀ c ∈ l, c.tag = n) : ∀ c ∈ l, c.tag = n := by
  unfold drawIf at h
  split at h
  · exact hp l h
  · cases h; simp

omit [Field K] [LinearOrder K] in
theorem drawIf_some {flag : Bool} {part : Option (List (DrawCmd K))} {l : List (DrawCmd K)}
    (h : drawIf flag part = some l) : (flag = true ∧ part = some l) ∨ (flag = false ∧ l = []) := by
  unfold drawIf at h
  split at h
  · rename_i hf; exact Or.inl ⟨hf, h⟩
  · rename_i hf
    cases h
    exact Or.inr ⟨by simpa using hf, rfl⟩

/-- The parts of a drawing: each kind of call comes from one part. -/
theorem draw_parts {isT : ElGroup N → Bool} {iter : List Nat → List Nat} {rng : Nat → K} {o : DrawOpts}
    {m : FMesh N (Fin 2 → K) A} {cmds : List (DrawCmd K)} (h : draw2d isT iter rng o m = some cmds) :
    m.ambientDim = 2 ∧ ∃ els verts arrows faces box, drawElements isT o.elementNumbers m = some els ∧
      drawIf o.vertexNumbers (drawVertexNumbers m.vertices) = some verts ∧
      drawIf o.nodalAdjacency ((accessValue (m.nodal iter)).bind (drawArrows m rng)) = some arrows ∧
      drawIf o.faceNumbers (drawFaceNumbers m) = some faces ∧
      drawIf o.boundingBox (drawLimits m) = some box ∧
      outlinesOf cmds = outlinesOf els ∧ textsOf .element cmds = textsOf .element els ∧
      textsOf .vertex cmds = textsOf .vertex verts ∧ arrowsOf cmds = arrowsOf arrows ∧
      textsOf .face cmds = textsOf .face faces ∧ limitsOf cmds = limitsOf box := by
  unfold draw2d at h
  split at h
  · simp at h
  · rename_i hd
    obtain ⟨els, h1, h⟩ := Option.bind_eq_some_iff.1 h
    obtain ⟨verts, h2, h⟩ := Option.bind_eq_some_iff.1 h
    obtain ⟨arrows, h3, h⟩ := Option.bind_eq_some_iff.1 h
    obtain ⟨faces, h4, h⟩ := Option.bind_eq_some_iff.1 h
    obtain ⟨box, h5, h⟩ := Option.bind_eq_some_iff.1 h
    simp only [Option.pure_def, Option.some.injEq] at h
    subst h
    have t1 := tag_elements h1
    have t2 := tag_if h2 fun l hl => tag_vertices hl
    have t3 : ∀ c ∈ arrows, c.tag = 4 := tag_if h3 fun l hl => by
      obtain ⟨adj, -, hl⟩ := Option.bind_eq_some_iff.1 hl
      exact tag_arrows hl
    have t4 := tag_if h4 fun l hl => tag_faces hl
    have t5 := tag_if h5 fun l hl => tag_limits hl
    have n1 : ∀ n, n ≠ 0 → n ≠ 1 → ∀ c ∈ els, c.tag ≠ n := fun n a b c hc hn => by
      rcases t1 c hc with h | h <;> omega
    have n2 : ∀ n, n ≠ 2 → ∀ c ∈ verts, c.tag ≠ n := fun n a c hc hn => by have := t2 c hc; omega
    have n3 : ∀ n, n ≠ 4 → ∀ c ∈ arrows, c.tag ≠ n := fun n a c hc hn => by have := t3 c hc; omega
    have n4 : ∀ n, n ≠ 3 → ∀ c ∈ faces, c.tag ≠ n := fun n a c hc hn => by have := t4 c hc; omega
    have n5 : ∀ n, n ≠ 5 → ∀ c ∈ box, c.tag ≠ n := fun n a c hc hn => by have := t5 c hc; omega
    refine ⟨by simpa using hd, els, verts, arrows, faces, box, h1, h2, h3, h4, h5, ?_, ?_, ?_, ?_, ?_, ?_⟩
    · have a1 := outlinesOf_nil (n2 0 (by decide))
      have a2 := outlinesOf_nil (n3 0 (by decide))
      have a3 := outlinesOf_nil (n4 0 (by decide))
      have a4 := outlinesOf_nil (n5 0 (by decide))
      simp only [outlinesOf, List.filterMap_append] at *
      simp [a1, a2, a3, a4]
    · have a1 := textsOf_nil (k := .element) (n2 1 (by decide))
      have a2 := textsOf_nil (k := .element) (n3 1 (by decide))
      have a3 := textsOf_nil (k := .element) (n4 1 (by decide))
      have a4 := textsOf_nil (k := .element) (n5 1 (by decide))
      simp only [textsOf, List.filterMap_append] at *
      simp [a1, a2, a3, a4]
    · have a1 := textsOf_nil (k := .vertex) (n1 2 (by decide) (by decide))
      have a2 := textsOf_nil (k := .vertex) (n3 2 (by decide))
      have a3 := textsOf_nil (k := .vertex) (n4 2 (by decide))
      have a4 := textsOf_nil (k := .vertex) (n5 2 (by decide))
      simp only [textsOf, List.filterMap_append] at *
      simp [a1, a2, a3, a4]
    · have a1 := arrowsOf_nil (n1 4 (by decide) (by decide))
      have a2 := arrowsOf_nil (n2 4 (by decide))
      have a3 := arrowsOf_nil (n4 4 (by decide))
      have a4 := arrowsOf_nil (n5 4 (by decide))
      simp only [arrowsOf, List.filterMap_append] at *
      simp [a1, a2, a3, a4]
    · have a1 := textsOf_nil (k := .face) (n1 3 (by decide) (by decide))
      have a2 := textsOf_nil (k := .face) (n2 3 (by decide))
      have a3 := textsOf_nil (k := .face) (n3 3 (by decide))
      have a4 := textsOf_nil (k := .face) (n5 3 (by decide))
      simp only [textsOf, List.filterMap_append] at *
      simp [a1, a2, a3, a4]
    · have a1 := limitsOf_nil (n1 5 (by decide) (by decide))
      have a2 := limitsOf_nil (n2 5 (by decide))
      have a3 := limitsOf_nil (n3 5 (by decide))
      have a4 := limitsOf_nil (n4 5 (by decide))
      simp only [limitsOf, List.filterMap_append] at *
      simp [a1, a2, a3, a4]

/-- If each piece contributes exactly one item, the items of the concatenation are those of the pieces. -/
theorem single_flatten {α β γ : Type} {F : α → Option (List β)} {f : β → Option γ} {P : α → γ → Prop}
    (hF : ∀ a cs, F a = some cs → ∃ b, cs.filterMap f = [b] ∧ P a b) :
    ∀ {l : List α} {css : List (List β)}, l.mapM F = some css →
      (css.flatten.filterMap f).length = l.length ∧
      ∀ (i : Nat) a, l[i]? = some a → ∃ b, (css.flatten.filterMap f)[i]? = some b ∧ P a b := by
  intro l
  induction l with
  | nil => intro css h; cases h; simp
  | cons x l ih =>
    intro css h
    rw [List.mapM_cons] at h
    obtain ⟨cs, hcs, h⟩ := Option.bind_eq_some_iff.1 h
    obtain ⟨css', hcss, h⟩ := Option.bind_eq_some_iff.1 h
    cases h
    obtain ⟨b, hb, hP⟩ := hF x cs hcs
    obtain ⟨h1, h2⟩ := ih hcss
    rw [List.flatten_cons, List.filterMap_append, hb]
    refine ⟨by rw [List.length_append, h1]; simp; omega, fun i a hi => ?_⟩
    cases i with
    | zero => simp only [List.getElem?_cons_zero, Option.some.injEq] at hi; subst hi; exact ⟨b, rfl, hP⟩
    | succ i => simpa using h2 i a (by simpa using hi)

theorem indexed_getElem? {isT : ElGroup N → Bool} {groups : List (ElGroup N)} {g i e : Nat} {grp : ElGroup N}
    {row : List Nat} (hg : groups[g]? = some grp) (hr : grp.vertexIndices[i]? = some row)
    (he : IsGlobalNr (groups.map fun g => g.vertexIndices.length) g i e) :
    (indexedElements isT groups)[e]? = some (g, i, isT grp, row) := by
  unfold indexedElements
  rw [flatten_getElem? (k := g) (i := i)]
  · simp [hg, hr]
  · have : ((groups.zipIdx.map fun gk => gk.1.vertexIndices.zipIdx.map fun rk =>
        (gk.2, rk.2, isT gk.1, rk.1)).map List.length) = groups.map fun g => g.vertexIndices.length := by
      apply List.ext_getElem? fun j => ?_
      simp only [List.getElem?_map, List.getElem?_zipIdx]
      cases groups[j]? <;> simp
    rw [this]
    exact he

theorem indexed_length (isT : ElGroup N → Bool) (groups : List (ElGroup N)) :
    (indexedElements isT groups).length = (groups.map fun g => g.vertexIndices.length).sum := by
  unfold indexedElements
  rw [List.length_flatten]
  congr 1
  apply List.ext_getElem? fun j => ?_
  simp only [List.getElem?_map, List.getElem?_zipIdx]
  cases groups[j]? <;> simp

omit [LinearOrder K] in
theorem drawElement_eq {vs : Option (List (Fin 2 → K))} {nb : Bool} {ng g i : Nat} {t : Bool} {row : List Nat}
    {cs : List (DrawCmd K)} (h : drawElement vs nb ng t g i row = some cs) :
    ∃ ev0 ev o, rowPoints vs row = some ev0 ∧ drawnPoints t ev0 = some ev ∧ outline ev = some o ∧
      cs = .path o :: if nb then [.text .element (meanPt ev) (elementLabel ng g i)] else [] := by
  obtain ⟨ev0, h1, h⟩ := Option.bind_eq_some_iff.1 h
  obtain ⟨ev, h2, h⟩ := Option.bind_eq_some_iff.1 h
  obtain ⟨o, h3, h⟩ := Option.bind_eq_some_iff.1 h
  simp only [Option.pure_def, Option.some.injEq] at h
  exact ⟨ev0, ev, o, h1, h2, h3, h.symm⟩

omit [Field K] [LinearOrder K] in
theorem mapM_map_some {α β : Type} {f : α → Option β} {l : List α} {r : List β} :
    l.mapM f = some r ↔ l.map f = r.map some := by
  induction l generalizing r with
  | nil => cases r <;> simp
  | cons x l ih =>
    rw [List.mapM_cons]
    constructor
    · intro h
      obtain ⟨b, hb, h⟩ := Option.bind_eq_some_iff.1 h
      obtain ⟨bs, hbs, h⟩ := Option.bind_eq_some_iff.1 h
      simp only [Option.pure_def, Option.some.injEq] at h
      subst h
      simp [hb, ih.1 hbs]
    · intro h
      cases r with
      | nil => simp at h
      | cons b r =>
        simp only [List.map_cons, List.cons.injEq] at h
        rw [h.1, ih.2 h.2]
        rfl

omit [Field K] [LinearOrder K] in
theorem rowPoints_iff {m : FMesh N (Fin 2 → K) A} {row : List Nat} {ev : List (Fin 2 → K)} :
    rowPoints m.vertices row = some ev ↔ Corners m row ev := by
  unfold rowPoints Corners
  refine Option.bind_eq_some_iff.trans ?_
  exact exists_congr fun vs => and_congr_right fun _ => mapM_map_some

omit [Field K] [LinearOrder K] in
theorem Corners.length {m : FMesh N (Fin 2 → K) A} {row : List Nat} {ev : List (Fin 2 → K)}
    (h : Corners m row ev) : ev.length = row.length := by
  obtain ⟨vs, -, h⟩ := h
  have := congrArg List.length h
  simpa using this.symm

omit [Field K] [LinearOrder K] in
theorem Corners.mem {m : FMesh N (Fin 2 → K) A} {row : List Nat} {ev : List (Fin 2 → K)}
    (h : Corners m row ev) {vs : List (Fin 2 → K)} (hv : m.vertices = some vs) : ∀ p ∈ ev, p ∈ vs := by
  obtain ⟨vs', hv', h⟩ := h
  rw [hv] at hv'
  cases hv'
  intro p hp
  have : some p ∈ row.map (fun v => vs[v]?) := by rw [h]; exact List.mem_map.2 ⟨p, hp, rfl⟩
  obtain ⟨v, -, hv⟩ := List.mem_map.1 this
  exact List.mem_of_getElem? hv

omit [Field K] [LinearOrder K] in
theorem drawn_tensor {ev0 ev : List (Fin 2 → K)} (h : drawnPoints true ev0 = some ev) :
    ∃ a b c d l, ev0 = a :: b :: c :: d :: l ∧ ev = [a, b, d, c] := by
  rw [drawnPoints, if_pos rfl, mapM_map_some] at h
  match ev0 with
  | [] => cases ev <;> simp at h
  | [a] => cases ev with
    | nil => simp at h
    | cons x ev => cases ev <;> simp at h
  | [a, b] =>
    match ev with
    | [] => simp at h
    | [_] => simp at h
    | [_, _] => simp at h
    | _ :: _ :: _ :: _ => simp at h
  | [a, b, c] =>
    match ev with
    | [] => simp at h
    | [_] => simp at h
    | [_, _] => simp at h
    | _ :: _ :: _ :: _ => simp at h
  | a :: b :: c :: d :: l =>
    refine ⟨a, b, c, d, l, rfl, ?_⟩
    have : [a, b, d, c].map some = ev.map some := by simpa using h
    exact (List.map_injective_iff.2 (Option.some_injective _) this).symm

theorem zipWith_extra {α β γ : Type} (f : α → β → γ) (c : List α) :
    ∀ (a : List α) (b : List β), b.length ≤ a.length → (a ++ c).zipWith f b = a.zipWith f b
  | [], [], _ => by cases c <;> rfl
  | [], _ :: _, h => by simp at h
  | _ :: _, [], _ => rfl
  | x :: a, y :: b, h => by
    rw [List.cons_append, List.zipWith_cons_cons, List.zipWith_cons_cons,
      zipWith_extra f c a b (by simpa using h)]

omit [Field K] [LinearOrder K] in
theorem outline_lines {ev : List (Fin 2 → K)} {o : List (PathCode × (Fin 2 → K))} (h : outline ev = some o) :
    ev ≠ [] ∧ pathLines o = cyclicLines ev ∧
      o.map Prod.fst = PathCode.moveto :: (List.replicate (ev.length - 1) .lineto ++ [.closepoly]) := by
  cases ev with
  | nil => simp [outline] at h
  | cons p ps =>
    simp only [outline, Option.some.injEq] at h
    subst h
    refine ⟨by simp, ?_, ?_⟩
    · have h1 : ((PathCode.moveto, p) :: ps.map (fun q => (PathCode.lineto, q)) ++
          [(PathCode.closepoly, p)]).map Prod.snd = p :: (ps ++ [p]) := by
        simp [List.map_map, Function.comp_def]
      rw [pathLines, h1, cyclicLines]
      simp only [List.tail_cons, List.rotate_cons_succ, List.rotate_zero]
      have : p :: (ps ++ [p]) = (p :: ps) ++ [p] := rfl
      rw [this, zipWith_extra _ _ _ _ (by simp)]
    · simp [List.map_map, Function.comp_def]

omit [LinearOrder K] in
/-- One polygon per element, in the order of the elements. -/
theorem elements_outlines {isT : ElGroup N → Bool} {nb : Bool} {m : FMesh N (Fin 2 → K) A}
    {els : List (DrawCmd K)} (h : drawElements isT nb m = some els) :
    (outlinesOf els).length = (m.groups.map fun g => g.vertexIndices.length).sum ∧
    ∀ (g i e : Nat) grp row, m.groups[g]? = some grp → grp.vertexIndices[i]? = some row →
      IsGlobalNr (m.groups.map fun g => g.vertexIndices.length) g i e →
      ∃ ev0 ev o, (outlinesOf els)[e]? = some o ∧ Corners m row ev0 ∧ drawnPoints (isT grp) ev0 = some ev ∧
        outline ev = some o := by
  obtain ⟨css, hc, h⟩ := Option.bind_eq_some_iff.1 h
  simp only [Option.pure_def, Option.some.injEq] at h
  subst h
  obtain ⟨h1, h2⟩ := single_flatten (f := fun c : DrawCmd K => match c with | .path d => some d | _ => none)
    (P := fun (x : Nat × Nat × Bool × List Nat) o => ∃ ev0 ev, Corners m x.2.2.2 ev0 ∧
      drawnPoints x.2.2.1 ev0 = some ev ∧ outline ev = some o) (fun x cs hx => by
        obtain ⟨ev0, ev, o, a, b, c, rfl⟩ := drawElement_eq hx
        refine ⟨o, ?_, ev0, ev, rowPoints_iff.1 a, b, c⟩
        cases nb <;> simp) hc
  refine ⟨h1.trans (indexed_length isT m.groups), fun g i e grp row hg hr he => ?_⟩
  obtain ⟨o, ho, ev0, ev, a, b, c⟩ := h2 e _ (indexed_getElem? hg hr he)
  exact ⟨ev0, ev, o, ho, a, b, c⟩

omit [LinearOrder K] in
/-- One number per element, in the order of the elements. -/
theorem elements_texts {isT : ElGroup N → Bool} {m : FMesh N (Fin 2 → K) A}
    {els : List (DrawCmd K)} (h : drawElements isT true m = some els) :
    (textsOf .element els).length = (m.groups.map fun g => g.vertexIndices.length).sum ∧
    ∀ (g i e : Nat) grp row, m.groups[g]? = some grp → grp.vertexIndices[i]? = some row →
      IsGlobalNr (m.groups.map fun g => g.vertexIndices.length) g i e →
      ∃ ev0 ev, (textsOf .element els)[e]? = some (meanPt ev, elementLabel m.groups.length g i) ∧
        Corners m row ev0 ∧ drawnPoints (isT grp) ev0 = some ev := by
  obtain ⟨css, hc, h⟩ := Option.bind_eq_some_iff.1 h
  simp only [Option.pure_def, Option.some.injEq] at h
  subst h
  obtain ⟨h1, h2⟩ := single_flatten
    (f := fun c : DrawCmd K => match c with
      | .text k' p l => if k' = TextKind.element then some (p, l) else none | _ => none)
    (P := fun (x : Nat × Nat × Bool × List Nat) t => ∃ ev0 ev, Corners m x.2.2.2 ev0 ∧
      drawnPoints x.2.2.1 ev0 = some ev ∧ t = (meanPt ev, elementLabel m.groups.length x.1 x.2.1)) (fun x cs hx => by
        obtain ⟨ev0, ev, o, a, b, c, rfl⟩ := drawElement_eq hx
        exact ⟨_, by simp, ev0, ev, rowPoints_iff.1 a, b, rfl⟩) hc
  refine ⟨h1.trans (indexed_length isT m.groups), fun g i e grp row hg hr he => ?_⟩
  obtain ⟨t, ht, ev0, ev, a, b, rfl⟩ := h2 e _ (indexed_getElem? hg hr he)
  exact ⟨ev0, ev, ht, a, b⟩

/-! ## Properties -/

/-- **C108**: there is one closed polygon for each element, in the order of the elements; its sides join the
corners of the element, in the order of the vertices, or in the order 0, 1, 3, 2 for quadrilaterals. -/
theorem C108_outlines {isT : ElGroup N → Bool} {iter : List Nat → List Nat} {rng : Nat → K} {o : DrawOpts}
    {m : FMesh N (Fin 2 → K) A} {cmds : List (DrawCmd K)} (h : draw2d isT iter rng o m = some cmds) :
    (outlinesOf cmds).length = (m.groups.map fun g => g.vertexIndices.length).sum ∧
    ∀ (g i e : Nat) grp row, m.groups[g]? = some grp → grp.vertexIndices[i]? = some row →
      IsGlobalNr (m.groups.map fun g => g.vertexIndices.length) g i e →
      ∃ ev d, (outlinesOf cmds)[e]? = some d ∧ Corners m row ev ∧ ev ≠ [] ∧
        (isT grp = false → pathLines d = cyclicLines ev ∧
          d.map Prod.fst = PathCode.moveto :: (List.replicate (ev.length - 1) .lineto ++ [.closepoly])) ∧
        (isT grp = true → ∃ a b c d' l, ev = a :: b :: c :: d' :: l ∧ pathLines d = cyclicLines [a, b, d', c] ∧
          d.map Prod.fst = [.moveto, .lineto, .lineto, .lineto, .closepoly]) := by
  obtain ⟨-, els, verts, arrows, faces, box, h1, -, -, -, -, ho, -⟩ := draw_parts h
  rw [ho]
  obtain ⟨hlen, hall⟩ := elements_outlines h1
  refine ⟨hlen, fun g i e grp row hg hr he => ?_⟩
  obtain ⟨ev0, ev, d, hd, hc, hdr, hout⟩ := hall g i e grp row hg hr he
  obtain ⟨hne, hl, hcodes⟩ := outline_lines hout
  refine ⟨ev0, d, hd, hc, ?_, fun hf => ?_, fun ht => ?_⟩
  · rintro rfl
    cases hT : isT grp with
    | false => rw [hT] at hdr; simp only [drawnPoints] at hdr; cases hdr; exact hne rfl
    | true =>
      rw [hT] at hdr
      obtain ⟨_, _, _, _, _, h, _⟩ := drawn_tensor hdr
      simp at h
  · rw [hf] at hdr
    simp only [drawnPoints] at hdr
    cases hdr
    exact ⟨hl, hcodes⟩
  · rw [ht] at hdr
    obtain ⟨a, b, c, d', l, rfl, rfl⟩ := drawn_tensor hdr
    exact ⟨a, b, c, d', l, rfl, hl, hcodes⟩

/-- **C108**: for triangles and quadrilaterals the sides that are drawn are the faces of the element. -/
theorem C108_sides_are_faces {isT : ElGroup N → Bool} {iter : List Nat → List Nat} {rng : Nat → K} {o : DrawOpts}
    {m : FMesh N (Fin 2 → K) A} {cmds : List (DrawCmd K)} (h : draw2d isT iter rng o m = some cmds)
    {g i e : Nat} {grp : ElGroup N} {row : List Nat} (hg : m.groups[g]? = some grp)
    (hr : grp.vertexIndices[i]? = some row)
    (he : IsGlobalNr (m.groups.map fun g => g.vertexIndices.length) g i e)
    (hshape : (isT grp = false ∧ row.length = 3 ∧ grp.fvi = [[0, 1], [2, 0], [1, 2]]) ∨
      (isT grp = true ∧ row.length = 4 ∧ grp.fvi = [[0, 2], [1, 3], [0, 1], [2, 3]])) :
    ∃ ev d, (outlinesOf cmds)[e]? = some d ∧ Corners m row ev ∧
      (pathLines d).Perm (faceLines grp.fvi ev) ∧ (pathLines d).length = grp.fvi.length := by
  obtain ⟨ev, d, hd, hc, -, hf, ht⟩ := (C108_outlines h).2 g i e grp row hg hr he
  refine ⟨ev, d, hd, hc, ?_⟩
  have hlen := hc.length
  rcases hshape with ⟨hT, h3, hfv⟩ | ⟨hT, h4, hfv⟩
  · rw [h3] at hlen
    obtain ⟨a, b, c, rfl⟩ := List.length_eq_three.1 hlen
    rw [(hf hT).1, hfv]
    constructor
    · simp only [cyclicLines, faceLines]
      simp only [List.rotate_cons_succ, List.rotate_zero, List.cons_append, List.nil_append,
        List.zipWith_cons_cons, List.zipWith_nil_right, List.filterMap_cons, List.filterMap_nil,
        List.getElem?_cons_zero, List.getElem?_cons_succ]
      exact List.Perm.cons _ (List.Perm.swap _ _ _)
    · simp [cyclicLines]
  · obtain ⟨a, b, c, d', l, rfl, hl, -⟩ := ht hT
    have : l = [] := by
      rw [h4] at hlen
      simpa using hlen
    subst this
    rw [hl, hfv]
    constructor
    · simp only [cyclicLines, faceLines]
      simp only [List.rotate_cons_succ, List.rotate_zero, List.cons_append, List.nil_append,
        List.zipWith_cons_cons, List.zipWith_nil_right, List.filterMap_cons, List.filterMap_nil,
        List.getElem?_cons_zero, List.getElem?_cons_succ]
      rw [Sym2.eq_swap (a := d') (b := c), Sym2.eq_swap (a := c) (b := a)]
      refine (List.perm_iff_count.2 fun x => ?_)
      simp only [List.count_cons, List.count_nil]
      omega
    · simp [cyclicLines]

theorem digits_inj {a b : Nat} (h : Nat.toDigits 10 a = Nat.toDigits 10 b) : a = b := by
  have key : ∀ n, Nat.ofDigitChars 10 (Nat.toDigits 10 n) 0 = n := fun n =>
    Nat.ofDigitChars_toDigits (by omega) (by omega)
  rw [← key a, ← key b, h]

theorem colon_not_digit (n : Nat) : ':' ∉ Nat.toDigits 10 n := by
  intro h
  have := Nat.isDigit_of_mem_toDigits (by omega) (by omega) h
  exact absurd this (by decide)

theorem colon_split {a b c d : List Char} (ha : ':' ∉ a) (hc : ':' ∉ c) (h : a ++ ':' :: b = c ++ ':' :: d) :
    a = c ∧ b = d := by
  induction a generalizing c with
  | nil =>
    cases c with
    | nil => simpa using h
    | cons x c =>
      simp only [List.nil_append, List.cons_append, List.cons.injEq] at h
      exact absurd (by rw [← h.1]; simp) hc
  | cons x a ih =>
    cases c with
    | nil =>
      simp only [List.nil_append, List.cons_append, List.cons.injEq] at h
      exact absurd (by rw [h.1]; simp) ha
    | cons y c =>
      simp only [List.cons_append, List.cons.injEq] at h
      obtain ⟨h1, h2⟩ := ih (fun h' => ha (List.mem_cons_of_mem _ h')) (fun h' => hc (List.mem_cons_of_mem _ h')) h.2
      exact ⟨by rw [h.1, h1], h2⟩

/-- **C108**: no two elements get the same label. -/
theorem C108_labels_distinct {groups : List (ElGroup N)} {g i g' i' : Nat} (hg : g < groups.length)
    (hg' : g' < groups.length) (h : elementLabel groups.length g i = elementLabel groups.length g' i') :
    g = g' ∧ i = i' := by
  unfold elementLabel at h
  split at h
  · rename_i h1
    exact ⟨by omega, digits_inj h⟩
  · obtain ⟨h1, h2⟩ := colon_split (colon_not_digit _) (colon_not_digit _) h
    exact ⟨digits_inj h1, digits_inj h2⟩

example : elementLabel 1 0 12 = "12".toList ∧ elementLabel 2 1 12 = "1:12".toList := by decide +kernel

omit [LinearOrder K] in
theorem meanPt_perm {a b : List (Fin 2 → K)} (h : a.Perm b) : meanPt a = meanPt b := by
  funext j
  rw [meanPt, meanPt, (h.map _).sum_eq, h.length_eq]

/-- **C108**: with `draw_element_numbers` there is one label for each element, in the order of the elements, at
the mean of its corners; without it there is none. (Quadrilaterals have four vertices.) -/
theorem C108_element_numbers {isT : ElGroup N → Bool} {iter : List Nat → List Nat} {rng : Nat → K} {o : DrawOpts}
    {m : FMesh N (Fin 2 → K) A} {cmds : List (DrawCmd K)} (h : draw2d isT iter rng o m = some cmds)
    (hquad : ∀ grp ∈ m.groups, isT grp = true → ∀ row ∈ grp.vertexIndices, row.length = 4) :
    (o.elementNumbers = false → textsOf .element cmds = []) ∧
    (o.elementNumbers = true →
      (textsOf .element cmds).length = (m.groups.map fun g => g.vertexIndices.length).sum ∧
      ∀ (g i e : Nat) grp row, m.groups[g]? = some grp → grp.vertexIndices[i]? = some row →
        IsGlobalNr (m.groups.map fun g => g.vertexIndices.length) g i e →
        ∃ ev, Corners m row ev ∧
          (textsOf .element cmds)[e]? = some (meanPt ev, elementLabel m.groups.length g i)) := by
  obtain ⟨-, els, verts, arrows, faces, box, h1, -, -, -, -, -, ht, -⟩ := draw_parts h
  rw [ht]
  constructor
  · intro hf
    rw [hf] at h1
    obtain ⟨css, hc, h1⟩ := Option.bind_eq_some_iff.1 h1
    simp only [Option.pure_def, Option.some.injEq] at h1
    subst h1
    refine textsOf_nil fun c hcc => ?_
    obtain ⟨cs, hcs, hcc⟩ := List.mem_flatten.1 hcc
    obtain ⟨x, -, hx⟩ := mapM_mem hc hcs
    obtain ⟨_, _, d, _, _, _, rfl⟩ := drawElement_eq hx
    simp only [Bool.false_eq_true, if_false, List.mem_singleton] at hcc
    subst hcc
    exact Nat.zero_ne_one
  · intro hT
    rw [hT] at h1
    obtain ⟨hlen, hall⟩ := elements_texts h1
    refine ⟨hlen, fun g i e grp row hg hr he => ?_⟩
    obtain ⟨ev0, ev, hd, hc, hdr⟩ := hall g i e grp row hg hr he
    refine ⟨ev0, hc, ?_⟩
    rw [hd]
    congr 2
    cases hT : isT grp with
    | false => rw [hT] at hdr; simp only [drawnPoints] at hdr; cases hdr; rfl
    | true =>
      rw [hT] at hdr
      obtain ⟨a, b, c, d', l, rfl, rfl⟩ := drawn_tensor hdr
      have hl := hc.length
      rw [hquad grp (List.mem_of_getElem? hg) hT row (List.mem_of_getElem? hr)] at hl
      have : l = [] := by simpa using hl
      subst this
      exact meanPt_perm (List.Perm.cons _ (List.Perm.cons _ (List.Perm.swap _ _ _)))

/-- **C108**: with `draw_vertex_numbers` the `v`-th number is drawn at vertex `v`; without it there is none. -/
theorem C108_vertex_numbers {isT : ElGroup N → Bool} {iter : List Nat → List Nat} {rng : Nat → K} {o : DrawOpts}
    {m : FMesh N (Fin 2 → K) A} {cmds : List (DrawCmd K)} (h : draw2d isT iter rng o m = some cmds) :
    (o.vertexNumbers = false → textsOf .vertex cmds = []) ∧
    (o.vertexNumbers = true → ∃ vs, m.vertices = some vs ∧ (textsOf .vertex cmds).length = vs.length ∧
      ∀ (v : Nat) p, vs[v]? = some p → (textsOf .vertex cmds)[v]? = some (p, Nat.toDigits 10 v)) := by
  obtain ⟨-, els, verts, arrows, faces, box, -, h2, -, -, -, -, -, ht, -⟩ := draw_parts h
  rw [ht]
  rcases drawIf_some h2 with ⟨hf, hp⟩ | ⟨hf, rfl⟩
  · refine ⟨fun h => by simp [hf] at h, fun _ => ?_⟩
    obtain ⟨vs, hv, hp⟩ := Option.bind_eq_some_iff.1 hp
    simp only [Option.pure_def, Option.some.injEq] at hp
    subst hp
    have key : textsOf .vertex (vs.zipIdx.map fun vk => (.text .vertex vk.1 (Nat.toDigits 10 vk.2) : DrawCmd K)) =
        vs.zipIdx.map fun vk => (vk.1, Nat.toDigits 10 vk.2) := by
      rw [textsOf, List.filterMap_map]
      simp
    refine ⟨vs, hv, by rw [key]; simp, fun v p hp => ?_⟩
    rw [key]
    simp [hp]
  · exact ⟨fun _ => rfl, fun h => by simp [hf] at h⟩

omit [Field K] [LinearOrder K] in
theorem locate_iff {groups : List (ElGroup N)} {e i : Nat} {grp : ElGroup N}
    (h : locateElement groups e = some (grp, i)) :
    ∃ g, groups[g]? = some grp ∧ IsGlobalNr (groups.map ElGroup.nelements) g i e := by
  induction groups generalizing e with
  | nil => simp [locateElement] at h
  | cons g0 gs ih =>
    unfold locateElement at h
    split at h
    · rename_i hlt
      cases h
      exact ⟨0, rfl, by rw [List.map_cons, isGlobalNr_zero]; exact ⟨hlt, rfl⟩⟩
    · obtain ⟨g, hg, hn⟩ := ih h
      exact ⟨g + 1, by simpa using hg, by
        rw [List.map_cons, isGlobalNr_succ]; exact ⟨_, hn, by omega⟩⟩

theorem locate_of {groups : List (ElGroup N)} {e : Nat} (h : e < nelements (groups.map ElGroup.nelements)) :
    ∃ x, locateElement groups e = some x ∧ x.2 < x.1.nelements ∧ x.1 ∈ groups := by
  induction groups generalizing e with
  | nil => simp [nelements] at h
  | cons g0 gs ih =>
    unfold locateElement
    split
    · rename_i hlt
      exact ⟨_, rfl, hlt, by simp⟩
    · obtain ⟨x, h1, h2, h3⟩ := ih (e := e - g0.nelements) (by
        simp only [nelements, List.map_cons, List.sum_cons] at h ⊢; omega)
      exact ⟨x, h1, h2, List.mem_cons_of_mem _ h3⟩

omit [Field K] [LinearOrder K] in
theorem elementPoints_row {m : FMesh N (Fin 2 → K) A} {e : Nat} {ev : List (Fin 2 → K)}
    (h : elementPoints m e = some ev) : ∃ row, HasRow m.groups e row ∧ Corners m row ev := by
  obtain ⟨⟨grp, i⟩, h1, h⟩ := Option.bind_eq_some_iff.1 h
  obtain ⟨row, h2, h⟩ := Option.bind_eq_some_iff.1 h
  obtain ⟨g, hg, hn⟩ := locate_iff h1
  exact ⟨row, ⟨g, i, grp, hg, h2, hn⟩, rowPoints_iff.1 h⟩

theorem pairs_spec {adj : List Nat × List Nat} {n : Nat} {pairs : List (Nat × Nat)}
    (h : adjacentPairs adj n = some pairs)
    (hrows : ∀ e < n, ∃ row, csrRow adj.1 adj.2 e = some row ∧ row.Nodup) :
    pairs.Nodup ∧ ∀ e e', (e, e') ∈ pairs ↔ e < n ∧ ∃ row, csrRow adj.1 adj.2 e = some row ∧ e' ∈ row := by
  obtain ⟨rows, hr, h⟩ := Option.bind_eq_some_iff.1 h
  simp only [Option.pure_def, Option.some.injEq] at h
  subst h
  obtain ⟨hlen, hall⟩ := mapM_getElem?_some hr
  rw [List.length_range] at hlen
  have hrow : ∀ (e : Nat) l, rows[e]? = some l →
      e < n ∧ ∃ row, csrRow adj.1 adj.2 e = some row ∧ l = row.map fun nb => (e, nb) := by
    intro e l hl
    have hlt : e < n := by rw [← hlen]; exact (List.getElem?_eq_some_iff.1 hl).1
    obtain ⟨b, hb, hb'⟩ := hall e e (by simp [hlt])
    rw [hl] at hb
    cases hb
    obtain ⟨row, h1, h2⟩ := Option.map_eq_some_iff.1 hb'
    exact ⟨hlt, row, h1, h2.symm⟩
  constructor
  · rw [List.nodup_flatten]
    constructor
    · intro l hl
      obtain ⟨e, he⟩ := List.mem_iff_getElem?.1 hl
      obtain ⟨hlt, row, h1, rfl⟩ := hrow e l he
      obtain ⟨row', h1', hnd⟩ := hrows e hlt
      rw [h1] at h1'
      cases h1'
      exact hnd.map fun a b hab => (Prod.mk.injEq _ _ _ _ ▸ hab).2
    · rw [List.pairwise_iff_getElem]
      intro a b ha hb hab x hx hx'
      obtain ⟨-, ra, -, h1⟩ := hrow a _ (List.getElem?_eq_getElem ha)
      obtain ⟨-, rb, -, h2⟩ := hrow b _ (List.getElem?_eq_getElem hb)
      rw [h1] at hx
      rw [h2] at hx'
      obtain ⟨_, -, rfl⟩ := List.mem_map.1 hx
      obtain ⟨_, -, h3⟩ := List.mem_map.1 hx'
      simp only [Prod.mk.injEq] at h3
      omega
  · intro e e'
    constructor
    · intro h
      obtain ⟨l, hl, hm⟩ := List.mem_flatten.1 h
      obtain ⟨k, hk⟩ := List.mem_iff_getElem?.1 hl
      obtain ⟨hlt, row, h1, rfl⟩ := hrow k l hk
      obtain ⟨nb, hnb, h2⟩ := List.mem_map.1 hm
      cases h2
      exact ⟨hlt, row, h1, hnb⟩
    · rintro ⟨hlt, row, h1, h2⟩
      obtain ⟨b, hb, hb'⟩ := hall e e (by simp [hlt])
      rw [h1] at hb'
      cases hb'
      exact List.mem_flatten.2 ⟨_, List.mem_of_getElem? hb, List.mem_map.2 ⟨e', h2, rfl⟩⟩

theorem arrow_near [IsStrictOrderedRing K] (c nc r r' : Fin 2 → K) (hr : ∀ j, 0 ≤ r j ∧ r j ≤ 1)
    (hr' : ∀ j, 0 ≤ r' j ∧ r' j ≤ 1) : ∃ s v, arrowCmd c nc r r' = .arrow s v ∧ ∀ j : Fin 2,
      |s j - (c j + 3 / 20 * (nc j - c j))| ≤ max |nc 0 - c 0| |nc 1 - c 1| / 40 ∧
      |s j + v j - (c j + 17 / 20 * (nc j - c j))| ≤ 17 / 400 * max |nc 0 - c 0| |nc 1 - c 1| ∧
      |v j - 7 / 10 * (nc j - c j)| ≤ 7 / 400 * max |nc 0 - c 0| |nc 1 - c 1| := by
  refine ⟨_, _, rfl, fun j => ?_⟩
  simp only [arrowMag, arrowDx]
  set mag := max |nc 0 - c 0| |nc 1 - c 1| with hm
  have h0 : 0 ≤ mag := le_max_of_le_left (abs_nonneg _)
  have a1 : (r j - 1 / 2) * mag ≤ 1 / 2 * mag := mul_le_mul_of_nonneg_right (by linarith [(hr j).2]) h0
  have a2 : (-(1 / 2)) * mag ≤ (r j - 1 / 2) * mag := mul_le_mul_of_nonneg_right (by linarith [(hr j).1]) h0
  have b1 : (r' j - 1 / 2) * mag ≤ 1 / 2 * mag := mul_le_mul_of_nonneg_right (by linarith [(hr' j).2]) h0
  have b2 : (-(1 / 2)) * mag ≤ (r' j - 1 / 2) * mag := mul_le_mul_of_nonneg_right (by linarith [(hr' j).1]) h0
  refine ⟨abs_le.2 ⟨?_, ?_⟩, abs_le.2 ⟨?_, ?_⟩, abs_le.2 ⟨?_, ?_⟩⟩ <;> linarith

/-- **C108**: with `draw_nodal_adjacency` there is exactly one arrow for each ordered pair of different elements
that share a vertex. It starts near the point at 15 per cent of the way from the centre of the first element to
the centre of the second, and ends near the point at 85 per cent. -/
theorem C108_arrows [IsStrictOrderedRing K] {isT : ElGroup N → Bool} {iter : List Nat → List Nat}
    (hiter : ∀ s, (iter s).Perm s) {rng : Nat → K} (hrng : ∀ n, 0 ≤ rng n ∧ rng n ≤ 1) {o : DrawOpts}
    (ho : o.nodalAdjacency = true) {m : FMesh N (Fin 2 → K) A} (hmiss : m.lazy.nodal = .missing)
    {cmds : List (DrawCmd K)} (h : draw2d isT iter rng o m = some cmds) :
    ∃ pairs : List (Nat × Nat), pairs.Nodup ∧
      (∀ e e', (e, e') ∈ pairs ↔ e' ≠ e ∧ ShareVertex m.groups e e') ∧
      (arrowsOf cmds).length = pairs.length ∧
      ∀ (k e e' : Nat), pairs[k]? = some (e, e') →
        ∃ row row' ev ev' s v, HasRow m.groups e row ∧ HasRow m.groups e' row' ∧ Corners m row ev ∧
          Corners m row' ev' ∧ (arrowsOf cmds)[k]? = some (s, v) ∧ ∀ j : Fin 2,
          |s j - (meanPt ev j + 3 / 20 * (meanPt ev' j - meanPt ev j))| ≤
            max |meanPt ev' 0 - meanPt ev 0| |meanPt ev' 1 - meanPt ev 1| / 40 ∧
          |s j + v j - (meanPt ev j + 17 / 20 * (meanPt ev' j - meanPt ev j))| ≤
            17 / 400 * max |meanPt ev' 0 - meanPt ev 0| |meanPt ev' 1 - meanPt ev 1| := by
  obtain ⟨-, els, verts, arrows, faces, box, -, -, h3, -, -, -, -, -, ha, -⟩ := draw_parts h
  rw [ha]
  rcases drawIf_some h3 with ⟨-, hp⟩ | ⟨hf, -⟩
  swap
  · rw [ho] at hf; simp at hf
  obtain ⟨⟨starts, nbrs⟩, hadj, hp1⟩ := Option.bind_eq_some_iff.1 hp
  obtain ⟨pairs, hpairs, hp2⟩ := Option.bind_eq_some_iff.1 hp1
  have hcomp : nodalAdjacency iter (m.vertices.getD []).length m.groups = some (starts, nbrs) := by
    unfold FMesh.nodal accessSlot at hadj
    rw [hmiss] at hadj
    simp only at hadj
    split at hadj
    · simp [accessValue] at hadj
    · cases hn : nodalAdjacency iter (m.vertices.getD []).length m.groups with
      | none => rw [hn] at hadj; simp [accessValue] at hadj
      | some a => rw [hn] at hadj; simpa [accessValue] using hadj
  obtain ⟨-, hrows⟩ := C04_nodal_adjacency_is_vertex_sharing hiter hcomp
  obtain ⟨hnd, hmem⟩ := pairs_spec hpairs fun e he => by
    obtain ⟨row, h1, h2, -⟩ := hrows e he
    exact ⟨row, h1, h2⟩
  obtain ⟨hlen, hall⟩ := mapM_getElem?_some hp2
  have hpos : ∀ (k e e' : Nat), pairs[k]? = some (e, e') → ∃ ev ev' s v, elementPoints m e = some ev ∧
      elementPoints m e' = some ev' ∧ arrows[k]? = some (.arrow s v) ∧ ∀ j : Fin 2,
          |s j - (meanPt ev j + 3 / 20 * (meanPt ev' j - meanPt ev j))| ≤
            max |meanPt ev' 0 - meanPt ev 0| |meanPt ev' 1 - meanPt ev 1| / 40 ∧
          |s j + v j - (meanPt ev j + 17 / 20 * (meanPt ev' j - meanPt ev j))| ≤
            17 / 400 * max |meanPt ev' 0 - meanPt ev 0| |meanPt ev' 1 - meanPt ev 1| := by
    intro k e e' hk
    obtain ⟨c, hc, hd⟩ := hall k ((e, e'), k) (by simp [hk])
    obtain ⟨-, ev, nv, h1, h2, rfl⟩ := drawArrow_eq hd
    obtain ⟨s, v, hs, hj⟩ := arrow_near (meanPt ev) (meanPt nv) (fun j => rng (4 * k + j.1))
      (fun j => rng (4 * k + 2 + j.1)) (fun j => hrng _) (fun j => hrng _)
    exact ⟨ev, nv, s, v, h1, h2, by rw [hc, hs], fun j => ⟨(hj j).1, (hj j).2.1⟩⟩
  have hfm : ∀ l : List (DrawCmd K), (∀ c ∈ l, c.tag = 4) → (arrowsOf l).length = l.length ∧
      ∀ (k : Nat) s v, l[k]? = some (.arrow s v) → (arrowsOf l)[k]? = some (s, v) := by
    intro l
    induction l with
    | nil => simp [arrowsOf]
    | cons c l ih =>
      intro hl
      obtain ⟨i1, i2⟩ := ih fun c hc => hl c (List.mem_cons_of_mem _ hc)
      have hc := hl c (by simp)
      cases c with
      | path _ => simp [DrawCmd.tag] at hc
      | limits _ _ => simp [DrawCmd.tag] at hc
      | text k _ _ => cases k <;> simp [DrawCmd.tag] at hc
      | arrow s v =>
        have e : arrowsOf (.arrow s v :: l) = (s, v) :: arrowsOf l := rfl
        rw [e]
        refine ⟨by simp [i1], fun k s' v' hk => ?_⟩
        cases k with
        | zero => simp only [List.getElem?_cons_zero, Option.some.injEq, DrawCmd.arrow.injEq] at hk ⊢; rw [hk.1, hk.2]
        | succ k => simpa using i2 k s' v' (by simpa using hk)
  have htag : ∀ c ∈ arrows, c.tag = 4 := tag_arrows (adj := (starts, nbrs)) (m := m) (rng := rng)
    (Option.bind_eq_some_iff.2 ⟨pairs, hpairs, hp2⟩)
  obtain ⟨f1, f2⟩ := hfm arrows htag
  refine ⟨pairs, hnd, fun e e' => ?_, by rw [f1, hlen]; simp, fun k e e' hk => ?_⟩
  · rw [hmem]
    constructor
    · rintro ⟨hlt, row, h1, h2⟩
      obtain ⟨row', h1', -, h3⟩ := hrows e hlt
      rw [h1] at h1'
      cases h1'
      exact (h3 e').1 h2
    · rintro ⟨hne, hsh⟩
      have hlt : e < nelements (m.groups.map ElGroup.nelements) := by
        obtain ⟨row, _, _, hr, -⟩ := hsh
        exact hasRow_lt hr
      obtain ⟨row', h1', -, h3⟩ := hrows e hlt
      exact ⟨hlt, row', h1', (h3 e').2 ⟨hne, hsh⟩⟩
  · obtain ⟨ev, ev', s, v, h1, h2, h3, h4⟩ := hpos k e e' hk
    obtain ⟨row, r1, r2⟩ := elementPoints_row h1
    obtain ⟨row', r1', r2'⟩ := elementPoints_row h2
    exact ⟨row, row', ev, ev', s, v, r1, r1', r2, r2', f2 k s v h3, h4⟩

/-- **C108**: without `draw_nodal_adjacency` there are no arrows. -/
theorem C108_no_arrows {isT : ElGroup N → Bool} {iter : List Nat → List Nat}
    {rng : Nat → K} {o : DrawOpts} (ho : o.nodalAdjacency = false) {m : FMesh N (Fin 2 → K) A}
    {cmds : List (DrawCmd K)} (h : draw2d isT iter rng o m = some cmds) : arrowsOf cmds = [] := by
  obtain ⟨-, els, verts, arrows, faces, box, -, -, h3, -, -, -, -, -, ha, -⟩ := draw_parts h
  rcases drawIf_some h3 with ⟨hf, -⟩ | ⟨-, rfl⟩
  · rw [ho] at hf; simp at hf
  · exact ha

omit [Field K] [LinearOrder K] in
theorem mem_textsOf {k : TextKind} {cmds : List (DrawCmd K)} {p : Fin 2 → K} {t : List Char} :
    (p, t) ∈ textsOf k cmds ↔ .text k p t ∈ cmds := by
  unfold textsOf
  rw [List.mem_filterMap]
  constructor
  · rintro ⟨c, hc, h⟩
    cases c with
    | text k' p' t' =>
      by_cases hk : k' = k
      · simp only [hk, if_true, Option.some.injEq, Prod.mk.injEq] at h
        obtain ⟨rfl, rfl⟩ := h
        rw [← hk]; exact hc
      · simp [hk] at h
    | _ => simp at h
  · intro h
    exact ⟨_, h, by simp⟩

omit [Field K] [LinearOrder K] in
theorem textsOf_length {k : TextKind} {l : List (DrawCmd K)} (h : ∀ c ∈ l, c.tag = k.tag) :
    (textsOf k l).length = l.length := by
  induction l with
  | nil => rfl
  | cons c l ih =>
    have hc := h c (by simp)
    have ih := ih fun c hc => h c (List.mem_cons_of_mem _ hc)
    have : ∃ p t, c = .text k p t := by
      cases c with
      | path _ => cases k <;> simp [DrawCmd.tag, TextKind.tag] at hc
      | limits _ _ => cases k <;> simp [DrawCmd.tag, TextKind.tag] at hc
      | arrow _ _ => cases k <;> simp [DrawCmd.tag, TextKind.tag] at hc
      | text k' p t =>
        refine ⟨p, t, ?_⟩
        cases k <;> cases k' <;> simp_all [DrawCmd.tag, TextKind.tag]
    obtain ⟨p, t, rfl⟩ := this
    have e : textsOf k (.text k p t :: l) = (p, t) :: textsOf k l := by simp [textsOf]
    rw [e, List.length_cons, ih, List.length_cons]

theorem mapM_flatten_length {α β : Type} {F : α → Option (List β)} {n : α → Nat}
    (hF : ∀ a cs, F a = some cs → cs.length = n a) :
    ∀ {l : List α} {css : List (List β)}, l.mapM F = some css → css.flatten.length = (l.map n).sum := by
  intro l
  induction l with
  | nil => intro css h; cases h; rfl
  | cons x l ih =>
    intro css h
    rw [List.mapM_cons] at h
    obtain ⟨cs, hcs, h⟩ := Option.bind_eq_some_iff.1 h
    obtain ⟨css', hcss, h⟩ := Option.bind_eq_some_iff.1 h
    cases h
    rw [List.flatten_cons, List.length_append, hF x cs hcs, ih hcss, List.map_cons, List.sum_cons]

/-- **C108**: with `draw_face_numbers` there is one number for each face of each element, at
`0.3 c + 0.7 f`, where `c` is the mean of the corners of the element and `f` the mean of the vertices of the face;
without it there is none. -/
theorem C108_face_numbers {isT : ElGroup N → Bool} {iter : List Nat → List Nat} {rng : Nat → K} {o : DrawOpts}
    {m : FMesh N (Fin 2 → K) A} {cmds : List (DrawCmd K)} (h : draw2d isT iter rng o m = some cmds) :
    (o.faceNumbers = false → textsOf .face cmds = []) ∧
    (o.faceNumbers = true →
      (textsOf .face cmds).length = (m.groups.map fun g => g.vertexIndices.length * g.fvi.length).sum ∧
      ∀ p t, (p, t) ∈ textsOf .face cmds ↔ ∃ g ∈ m.groups, ∃ row ∈ g.vertexIndices, ∃ ev f ref fv,
        Corners m row ev ∧ g.fvi[f]? = some ref ∧ ref.map (fun k => ev[k]?) = fv.map some ∧
        (∀ j, p j = 3 / 10 * meanPt ev j + 7 / 10 * meanPt fv j) ∧ t = Nat.toDigits 10 f) := by
  obtain ⟨-, els, verts, arrows, faces, box, -, -, -, h4, -, -, -, -, -, ht, -⟩ := draw_parts h
  rw [ht]
  rcases drawIf_some h4 with ⟨hf, hp⟩ | ⟨hf, rfl⟩
  · refine ⟨fun h => by simp [hf] at h, fun _ => ⟨?_, fun p t => ?_⟩⟩
    · rw [textsOf_length (k := .face) (tag_faces hp)]
      obtain ⟨css, hcs, hp⟩ := Option.bind_eq_some_iff.1 hp
      simp only [Option.pure_def, Option.some.injEq] at hp
      subst hp
      rw [mapM_flatten_length (n := fun gr : ElGroup N × List Nat => gr.1.fvi.length) (fun gr cs hx => by
        obtain ⟨ev, -, hx⟩ := Option.bind_eq_some_iff.1 hx
        rw [(mapM_getElem?_some hx).1]; simp) hcs]
      clear hcs ht h4 h hf
      induction m.groups with
      | nil => rfl
      | cons g gs ih =>
        rw [List.map_cons, List.flatten_cons, List.map_append, List.sum_append, ih, List.map_cons, List.sum_cons]
        simp [List.map_map, Function.comp_def]
    · rw [mem_textsOf]
      constructor
      · intro hc
        obtain ⟨g, hg, row, hr, ev, fv, f, ref, h1, h2, h3, h5⟩ := drawFaces_mem hp hc
        simp only [DrawCmd.text.injEq, true_and] at h5
        exact ⟨g, hg, row, hr, ev, f, ref, fv, rowPoints_iff.1 h1, h2, mapM_map_some.1 h3,
          fun j => by rw [h5.1]; rfl, h5.2⟩
      · rintro ⟨g, hg, row, hr, ev, f, ref, fv, h1, h2, h3, h5, rfl⟩
        obtain ⟨css, hcs, hp⟩ := Option.bind_eq_some_iff.1 hp
        simp only [Option.pure_def, Option.some.injEq] at hp
        subst hp
        have hmem : (g, row) ∈ (m.groups.map fun g => g.vertexIndices.map fun row => (g, row)).flatten :=
          List.mem_flatten.2 ⟨_, List.mem_map.2 ⟨g, hg, rfl⟩, List.mem_map.2 ⟨row, hr, rfl⟩⟩
        obtain ⟨i, hi⟩ := List.mem_iff_getElem?.1 hmem
        obtain ⟨cs, hcs1, hx⟩ := (mapM_getElem?_some hcs).2 i _ hi
        obtain ⟨ev', h1', hx⟩ := Option.bind_eq_some_iff.1 hx
        rw [rowPoints_iff.2 h1] at h1'
        cases h1'
        obtain ⟨c, hc, hx⟩ := (mapM_getElem?_some hx).2 f (ref, f) (by simp [h2])
        unfold drawFaceNumber at hx
        rw [mapM_map_some.2 h3] at hx
        cases hx
        refine List.mem_flatten.2 ⟨cs, List.mem_of_getElem? hcs1, ?_⟩
        have : p = faceLabelPos ev fv := funext h5
        rw [this]
        exact List.mem_of_getElem? hc
  · exact ⟨fun _ => rfl, fun h => by simp [hf] at h⟩

omit [LinearOrder K] in
theorem sum_affine (ps : List (Fin 2 → K)) (a b : K) :
    (ps.map fun p => a * p 0 + b * p 1).sum = a * (ps.map fun p => p 0).sum + b * (ps.map fun p => p 1).sum := by
  induction ps with
  | nil => simp
  | cons p ps ih => simp only [List.map_cons, List.sum_cons, ih]; ring

omit [LinearOrder K] in
theorem mean_affine (ps : List (Fin 2 → K)) (a b : K) :
    a * meanPt ps 0 + b * meanPt ps 1 = (ps.map fun p => a * p 0 + b * p 1).sum / (ps.length : K) := by
  rw [sum_affine]
  simp only [meanPt]
  ring

theorem mean_ge [IsStrictOrderedRing K] {ps : List (Fin 2 → K)} (hne : ps ≠ []) {a b t : K}
    (h : ∀ p ∈ ps, t ≤ a * p 0 + b * p 1) : t ≤ a * meanPt ps 0 + b * meanPt ps 1 := by
  have hpos : (0 : K) < (ps.length : K) := by
    have := List.length_pos_iff.2 hne
    exact_mod_cast this
  rw [mean_affine, le_div_iff₀ hpos]
  have := List.card_nsmul_le_sum (ps.map fun p => a * p 0 + b * p 1) t (by
    intro x hx
    obtain ⟨p, hp, rfl⟩ := List.mem_map.1 hx
    exact h p hp)
  rw [List.length_map, nsmul_eq_mul] at this
  linarith

theorem mean_gt [IsStrictOrderedRing K] {ps : List (Fin 2 → K)} {a b t : K}
    (h : ∀ p ∈ ps, t ≤ a * p 0 + b * p 1) {q : Fin 2 → K} (hq : q ∈ ps) (hlt : t < a * q 0 + b * q 1) :
    t < a * meanPt ps 0 + b * meanPt ps 1 := by
  have hpos : (0 : K) < (ps.length : K) := by
    have := List.length_pos_iff.2 (List.ne_nil_of_mem hq)
    exact_mod_cast this
  rw [mean_affine, lt_div_iff₀ hpos]
  clear hpos
  induction ps with
  | nil => simp at hq
  | cons p ps ih =>
    simp only [List.map_cons, List.sum_cons, List.length_cons, Nat.cast_add, Nat.cast_one]
    have hp := h p (by simp)
    have hps : ∀ p ∈ ps, t ≤ a * p 0 + b * p 1 := fun p hp => h p (List.mem_cons_of_mem _ hp)
    have hw : t * (ps.length : K) ≤ (ps.map fun p => a * p 0 + b * p 1).sum := by
      have := List.card_nsmul_le_sum (ps.map fun p => a * p 0 + b * p 1) t (by
        intro x hx
        obtain ⟨p, hp, rfl⟩ := List.mem_map.1 hx
        exact hps p hp)
      rw [List.length_map, nsmul_eq_mul] at this
      linarith
    rcases List.mem_cons.1 hq with rfl | hq
    · linarith
    · have := ih hps hq
      linarith

/-- **C108**: the labels of an element and of its faces lie inside it: strictly on the inner side of every line
that has all corners on one side (and not all of them on the line). -/
theorem C108_labels_inside [IsStrictOrderedRing K] {ev fv : List (Fin 2 → K)} (hfv : ∀ p ∈ fv, p ∈ ev)
    (hne : fv ≠ []) {a b t : K} (h : ∀ p ∈ ev, t ≤ a * p 0 + b * p 1) {q : Fin 2 → K} (hq : q ∈ ev)
    (hlt : t < a * q 0 + b * q 1) :
    t < a * meanPt ev 0 + b * meanPt ev 1 ∧
    t < a * (3 / 10 * meanPt ev 0 + 7 / 10 * meanPt fv 0) + b * (3 / 10 * meanPt ev 1 + 7 / 10 * meanPt fv 1) := by
  have h1 := mean_gt h hq hlt
  have h2 := mean_ge hne fun p hp => h p (hfv p hp)
  refine ⟨h1, ?_⟩
  linarith

omit [Field K] in
theorem limits_box {m : FMesh N (Fin 2 → K) A} {l : List (DrawCmd K)} (h : drawLimits m = some l) :
    ∃ lo hi, findBoundingBox m = .ok (lo, hi) ∧ l = [.limits lo hi] := by
  unfold drawLimits at h
  split at h
  · rename_i b hb
    cases h
    exact ⟨b.1, b.2, hb, rfl⟩
  · simp at h

/-- **C108**: with `set_bounding_box` the limits are set once, and all vertices, and the numbers of elements and
vertices, are within them; without it they are not set. -/
theorem C108_limits [IsStrictOrderedRing K] {isT : ElGroup N → Bool} {iter : List Nat → List Nat} {rng : Nat → K}
    {o : DrawOpts} {m : FMesh N (Fin 2 → K) A} {cmds : List (DrawCmd K)}
    (h : draw2d isT iter rng o m = some cmds) :
    (o.boundingBox = false → limitsOf cmds = []) ∧
    (o.boundingBox = true → ∃ vs x0 y0 x1 y1, m.vertices = some vs ∧ limitsOf cmds = [([x0, y0], [x1, y1])] ∧
      (∀ p ∈ vs, (x0 ≤ p 0 ∧ p 0 ≤ x1) ∧ (y0 ≤ p 1 ∧ p 1 ≤ y1)) ∧
      (∃ p ∈ vs, p 0 = x0) ∧ (∃ p ∈ vs, p 0 = x1) ∧ (∃ p ∈ vs, p 1 = y0) ∧ (∃ p ∈ vs, p 1 = y1) ∧
      ∀ row ev, Corners m row ev → ev ≠ [] →
        (x0 ≤ meanPt ev 0 ∧ meanPt ev 0 ≤ x1) ∧ (y0 ≤ meanPt ev 1 ∧ meanPt ev 1 ≤ y1)) := by
  obtain ⟨-, els, verts, arrows, faces, box, -, -, -, -, h5, -, -, -, -, -, ht⟩ := draw_parts h
  rw [ht]
  rcases drawIf_some h5 with ⟨hf, hp⟩ | ⟨hf, rfl⟩
  · refine ⟨fun h => by simp [hf] at h, fun _ => ?_⟩
    obtain ⟨lo, hi, hb, rfl⟩ := limits_box hp
    have hv : ∃ vs, m.vertices = some vs ∧ vs ≠ [] := by
      obtain ⟨e1, e2⟩ := C59_errors (m := m) (by omega : 0 < 2)
      cases hv : m.vertices with
      | none => rw [e1.2 hv] at hb; simp at hb
      | some vs =>
        refine ⟨vs, rfl, ?_⟩
        rintro rfl
        rw [e2.2 hv] at hb
        simp at hb
    obtain ⟨vs, hv, hne⟩ := hv
    obtain ⟨lo', hi', hb', l1, l2, hc⟩ := C59_box hv hne
    rw [hb] at hb'
    cases hb'
    obtain ⟨x0, y0, rfl⟩ := List.length_eq_two.1 l1
    obtain ⟨x1, y1, rfl⟩ := List.length_eq_two.1 l2
    obtain ⟨_, _, a1, a2, a3, a4, a5⟩ := hc 0
    obtain ⟨_, _, b1, b2, b3, b4, b5⟩ := hc 1
    simp only [Fin.val_zero, List.getElem?_cons_zero, Option.some.injEq] at a1 a2
    have v1 : (1 : Fin 2).1 = 1 := rfl
    simp only [v1, List.getElem?_cons_succ, List.getElem?_cons_zero, Option.some.injEq] at b1 b2
    subst a1 a2 b1 b2
    refine ⟨vs, _, _, _, _, hv, rfl, fun p hp => ⟨a5 p hp, b5 p hp⟩, a3, a4, b3, b4, fun row ev hcor hne' => ?_⟩
    have hm := hcor.mem hv
    have m1 := mean_ge (a := 1) (b := 0) (t := x0) hne' fun p hp => by linarith [(a5 p (hm p hp)).1]
    have m2 := mean_ge (a := -1) (b := 0) (t := -x1) hne' fun p hp => by linarith [(a5 p (hm p hp)).2]
    have m3 := mean_ge (a := 0) (b := 1) (t := y0) hne' fun p hp => by linarith [(b5 p (hm p hp)).1]
    have m4 := mean_ge (a := 0) (b := -1) (t := -y1) hne' fun p hp => by linarith [(b5 p (hm p hp)).2]
    exact ⟨⟨by linarith, by linarith⟩, by linarith, by linarith⟩
  · exact ⟨fun _ => rfl, fun h => by simp [hf] at h⟩

omit [Field K] [LinearOrder K] in
theorem corners_of {m : FMesh N (Fin 2 → K) A} {vs : List (Fin 2 → K)} (hv : m.vertices = some vs) {row : List Nat}
    (h : ∀ v ∈ row, v < vs.length) : ∃ ev, rowPoints m.vertices row = some ev ∧ ev.length = row.length := by
  obtain ⟨ev, he⟩ := mapM_isSome_of (f := fun v => vs[v]?) fun v hv => ⟨vs[v]'(h v hv), by simp [h v hv]⟩
  refine ⟨ev, ?_, (mapM_getElem?_some he).1⟩
  rw [hv]
  exact he

/-- **C108**: a mesh in two dimensions whose elements have corners can be drawn, with every combination of
flags. In another ambient dimension the function always raises an exception. -/
theorem C108_defined {isT : ElGroup N → Bool} {iter : List Nat → List Nat} (hiter : ∀ s, (iter s).Perm s)
    (rng : Nat → K) (o : DrawOpts) {m : FMesh N (Fin 2 → K) A} {vs : List (Fin 2 → K)} (hok : m.OK vs)
    (hg : m.groups ≠ []) (hvs : vs ≠ [])
    (hrow : ∀ g ∈ m.groups, ∀ row ∈ g.vertexIndices, row ≠ [] ∧ (isT g = true → row.length = 4))
    (hconf : m.lazy.conforming = some true) (hmiss : m.lazy.nodal = .missing) :
    (m.ambientDim = 2 ↔ ∃ cmds, draw2d isT iter rng o m = some cmds) := by
  constructor
  swap
  · rintro ⟨cmds, h⟩
    exact (draw_parts h).1
  intro hd
  have hrp : ∀ g ∈ m.groups, ∀ row ∈ g.vertexIndices,
      ∃ ev, rowPoints m.vertices row = some ev ∧ ev.length = row.length :=
    fun g hg row hr => corners_of hok.vertices (hok.valid g hg row hr)
  have h1 : ∃ els, drawElements isT o.elementNumbers m = some els := by
    obtain ⟨css, hcss⟩ := mapM_isSome_of (l := indexedElements isT m.groups)
      (f := fun x => drawElement m.vertices o.elementNumbers m.groups.length x.2.2.1 x.1 x.2.1 x.2.2.2)
      (fun x hx => by
        unfold indexedElements at hx
        obtain ⟨l, hl, hx⟩ := List.mem_flatten.1 hx
        obtain ⟨⟨g, k⟩, hgk, rfl⟩ := List.mem_map.1 hl
        obtain ⟨⟨row, i⟩, hri, rfl⟩ := List.mem_map.1 hx
        have hgm : g ∈ m.groups := List.fst_mem_of_mem_zipIdx hgk
        have hrm : row ∈ g.vertexIndices := List.fst_mem_of_mem_zipIdx hri
        obtain ⟨ev, hev, hlen⟩ := hrp g hgm row hrm
        obtain ⟨hne, h4⟩ := hrow g hgm row hrm
        have hdr : ∃ ev', drawnPoints (isT g) ev = some ev' ∧ ev' ≠ [] := by
          cases hT : isT g with
          | false => exact ⟨ev, rfl, by rintro rfl; exact hne (List.length_eq_zero_iff.1 hlen.symm)⟩
          | true =>
            rw [h4 hT] at hlen
            match ev, hlen with
            | [a, b, c, d], _ => exact ⟨[a, b, d, c], rfl, by simp⟩
        obtain ⟨ev', hdr, hne'⟩ := hdr
        cases ev' with
        | nil => exact absurd rfl hne'
        | cons p ps => exact ⟨_, Option.bind_eq_some_iff.2 ⟨ev, hev, Option.bind_eq_some_iff.2 ⟨_, hdr, rfl⟩⟩⟩)
    exact ⟨css.flatten, Option.bind_eq_some_iff.2 ⟨css, hcss, rfl⟩⟩
  have hif : ∀ (flag : Bool) (part : Option (List (DrawCmd K))), (∃ l, part = some l) →
      ∃ l, drawIf flag part = some l := by
    rintro flag part ⟨l, rfl⟩
    cases flag
    · exact ⟨[], rfl⟩
    · exact ⟨l, rfl⟩
  have h2 : ∃ l, drawVertexNumbers m.vertices = some l := by rw [hok.vertices]; exact ⟨_, rfl⟩
  have h3 : ∃ l, (accessValue (m.nodal iter)).bind (drawArrows m rng) = some l := by
    obtain ⟨⟨starts, nbrs⟩, hadj⟩ := C04_nodal_adjacency_defined iter vs.length hg hok.wf
      fun g hg row hr => ⟨(hrow g hg row hr).1, hok.valid g hg row hr⟩
    have hn : m.nodal iter = .ok (starts, nbrs) := by
      simp [FMesh.nodal, accessSlot, hmiss, hconf, hok.vertices, hadj]
    obtain ⟨-, hrows⟩ := C04_nodal_adjacency_is_vertex_sharing hiter hadj
    have hpairs : ∃ pairs, adjacentPairs (starts, nbrs) (nelements (m.groups.map ElGroup.nelements)) = some pairs := by
      obtain ⟨rows, hr⟩ := mapM_isSome_of (l := List.range (nelements (m.groups.map ElGroup.nelements)))
        (f := fun e => (csrRow starts nbrs e).map fun row => row.map fun nb => (e, nb)) (fun e he => by
          obtain ⟨row, h1, -⟩ := hrows e (List.mem_range.1 he)
          exact ⟨_, by rw [h1]; rfl⟩)
      exact ⟨rows.flatten, Option.bind_eq_some_iff.2 ⟨rows, hr, rfl⟩⟩
    obtain ⟨pairs, hpairs⟩ := hpairs
    obtain ⟨-, hmem⟩ := pairs_spec hpairs fun e he => by
      obtain ⟨row, h1, h2, -⟩ := hrows e he
      exact ⟨row, h1, h2⟩
    have hpt : ∀ e, e < nelements (m.groups.map ElGroup.nelements) → ∃ ev, elementPoints m e = some ev := by
      intro e he
      obtain ⟨x, hx, hlt, hxm⟩ := locate_of he
      have hlt' : x.2 < x.1.vertexIndices.length := by rw [(hok.wf x.1 hxm).1]; exact hlt
      obtain ⟨ev, hev, -⟩ := hrp x.1 hxm _ (List.getElem_mem hlt')
      exact ⟨ev, by
        refine Option.bind_eq_some_iff.2 ⟨x, hx, Option.bind_eq_some_iff.2 ⟨_, List.getElem?_eq_getElem hlt', hev⟩⟩⟩
    obtain ⟨l, hl⟩ := mapM_isSome_of (l := pairs.zipIdx) (f := drawArrow m rng) (fun pk hpk => by
      obtain ⟨⟨e, e'⟩, k⟩ := pk
      have hp : (e, e') ∈ pairs := List.fst_mem_of_mem_zipIdx hpk
      obtain ⟨hlt, row, hr1, hr2⟩ := (hmem e e').1 hp
      obtain ⟨row', hr1', -, hr3⟩ := hrows e hlt
      rw [hr1] at hr1'
      cases hr1'
      obtain ⟨hne, hsh⟩ := (hr3 e').1 hr2
      have hlt' : e' < nelements (m.groups.map ElGroup.nelements) := by
        obtain ⟨_, _, _, _, hr, -⟩ := hsh
        exact hasRow_lt hr
      obtain ⟨ev, hev⟩ := hpt e hlt
      obtain ⟨nv, hnv⟩ := hpt e' hlt'
      refine ⟨arrowCmd (meanPt ev) (meanPt nv) (fun j => rng (4 * k + j.1)) (fun j => rng (4 * k + 2 + j.1)), ?_⟩
      unfold drawArrow
      rw [if_neg (fun h => hne h.symm)]
      simp only [hev, hnv]
      rfl)
    refine ⟨l, ?_⟩
    rw [hn]
    show drawArrows m rng (starts, nbrs) = some l
    exact Option.bind_eq_some_iff.2 ⟨pairs, hpairs, hl⟩
  have h4 : ∃ l, drawFaceNumbers m = some l := by
    obtain ⟨css, hcss⟩ := mapM_isSome_of
      (l := (m.groups.map fun g => g.vertexIndices.map fun row => (g, row)).flatten)
      (f := fun gr => drawElementFaces m gr.1 gr.2) (fun x hx => by
        obtain ⟨l, hl, hx⟩ := List.mem_flatten.1 hx
        obtain ⟨g, hgm, rfl⟩ := List.mem_map.1 hl
        obtain ⟨row, hrm, rfl⟩ := List.mem_map.1 hx
        obtain ⟨ev, hev, hlen⟩ := hrp g hgm row hrm
        obtain ⟨l, hl⟩ := mapM_isSome_of (l := g.fvi.zipIdx) (f := drawFaceNumber ev) (fun fk hfk => by
          have href : fk.1 ∈ g.fvi := List.fst_mem_of_mem_zipIdx hfk
          obtain ⟨fv, hfv⟩ := mapM_isSome_of (l := fk.1) (f := fun k => ev[k]?) (fun k hk => by
            have : k < ev.length := by rw [hlen]; exact (hok.wf g hgm).2 row hrm fk.1 href k hk
            exact ⟨_, List.getElem?_eq_getElem this⟩)
          exact ⟨_, by simp only [drawFaceNumber, hfv]; rfl⟩)
        exact ⟨l, Option.bind_eq_some_iff.2 ⟨ev, hev, hl⟩⟩)
    exact ⟨css.flatten, Option.bind_eq_some_iff.2 ⟨css, hcss, rfl⟩⟩
  have h5 : ∃ l, drawLimits m = some l := by
    obtain ⟨lo, hi, hb, -⟩ := C59_box hok.vertices hvs
    exact ⟨_, by rw [drawLimits, hb]⟩
  obtain ⟨l1, h1⟩ := h1
  obtain ⟨l2, h2⟩ := hif o.vertexNumbers _ h2
  obtain ⟨l3, h3⟩ := hif o.nodalAdjacency _ h3
  obtain ⟨l4, h4⟩ := hif o.faceNumbers _ h4
  obtain ⟨l5, h5⟩ := hif o.boundingBox _ h5
  refine ⟨l1 ++ l2 ++ l3 ++ l4 ++ l5, ?_⟩
  unfold draw2d
  rw [if_neg (by simp [hd])]
  simp only [h1, h2, h3, h4, h5]
  rfl

/-! ## Curves -/

/-- The nodes of a group of a curve mesh: `nodes` has shape `(2, nelements, nunit_nodes)`.
Code: meshmode/mesh/visualization.py:205-209. -/
structure CurveGroup (K : Type) where
  nel : Nat
  nunit : Nat
  nodes : Fin 2 → Fin nel → Fin nunit → K

/-- A line or a set of markers made by `plt.plot`. Code: meshmode/mesh/visualization.py:203, 206-209. -/
structure PlotLine (K : Type) where
  label : List Char
  points : List (K × K)
  deriving DecidableEq, Repr

/-- `plt.plot(x, y, label=…)` for two-dimensional arrays: one line for each column.
Code: meshmode/mesh/visualization.py:206-209. -/
def plotColumns {a b : Nat} (label : List Char) (x y : Fin a → Fin b → K) : List (PlotLine K) :=
  (List.finRange b).map fun c => ⟨label, (List.finRange a).map fun r => (x r c, y r c)⟩

/-- `group.nodes[axis].T`, meshmode/mesh/visualization.py:207-208. -/
def CurveGroup.coordT (g : CurveGroup K) (axis : Fin 2) : Fin g.nunit → Fin g.nel → K :=
  fun u e => g.nodes axis e u

/-- `draw_curve`, meshmode/mesh/visualization.py:178-209: the markers and the lines. `none` is an exception:
the `ValueError` about dimensions, or that of a mesh without vertices. -/
def drawCurve (ambientDim dim : Nat) (vertices : Option (List (Fin 2 → K))) (groups : List (CurveGroup K)) :
    Option (PlotLine K × List (PlotLine K)) :=
  if ¬ (ambientDim = 2 ∧ dim = 1) then none else do
    let vs ← vertices
    pure (⟨[], vs.map fun v => (v 0, v 1)⟩,
      (groups.zipIdx.map fun gi =>
        plotColumns ("Group ".toList ++ Nat.toDigits 10 gi.2) (gi.1.coordT 0) (gi.1.coordT 1)).flatten)

omit [Field K] [LinearOrder K] in
/-- **C108**: a curve mesh in the plane is drawn with one marker at each vertex and one line through the nodes of
each element, in their order, labelled with the number of its group. Other meshes are rejected. -/
theorem C108_curve (ambientDim dim : Nat) (vs : List (Fin 2 → K)) (groups : List (CurveGroup K)) :
    ((∃ r, drawCurve ambientDim dim (some vs) groups = some r) ↔ ambientDim = 2 ∧ dim = 1) ∧
    ∀ marks lines, drawCurve ambientDim dim (some vs) groups = some (marks, lines) →
      marks.points = vs.map (fun v => (v 0, v 1)) ∧ lines.length = (groups.map fun g => g.nel).sum ∧
      ∀ (g e : Nat) grp (i : Fin grp.nel), groups[g]? = some grp →
        IsGlobalNr (groups.map fun g => g.nel) g i e →
        lines[e]? = some ⟨"Group ".toList ++ Nat.toDigits 10 g,
          (List.finRange grp.nunit).map fun u => (grp.nodes 0 i u, grp.nodes 1 i u)⟩ := by
  constructor
  · unfold drawCurve
    by_cases hd : ambientDim = 2 ∧ dim = 1
    · simp [hd]
    · rw [if_pos hd]; simp [hd]
  · intro marks lines h
    unfold drawCurve at h
    split at h
    · simp at h
    · simp only [Option.bind_eq_bind, Option.bind_some, Option.pure_def, Option.some.injEq, Prod.mk.injEq] at h
      obtain ⟨rfl, rfl⟩ := h
      have hlen : ((groups.zipIdx.map fun gi =>
          plotColumns ("Group ".toList ++ Nat.toDigits 10 gi.2) (gi.1.coordT 0) (gi.1.coordT 1)).map List.length) =
          groups.map fun g => g.nel := by
        apply List.ext_getElem? fun j => ?_
        simp only [List.getElem?_map, List.getElem?_zipIdx]
        cases groups[j]? <;> simp [plotColumns]
      refine ⟨rfl, by rw [List.length_flatten, hlen], fun g e grp i hg he => ?_⟩
      rw [flatten_getElem? (k := g) (i := i.1) (by rw [hlen]; exact he)]
      simp [hg, plotColumns, CurveGroup.coordT]

/-- Two segments with two nodes each. (Example, no code.) -/
def exCurveGroup : CurveGroup ℚ :=
  ⟨2, 2, fun a e u => if a = 0 then (e.1 : ℚ) + u.1 else e.1 * 10⟩

example : drawCurve 2 1 (some [fun _ => 0, fun _ => 1]) [exCurveGroup] = some (⟨[], [(0, 0), (1, 1)]⟩,
    [⟨"Group 0".toList, [(0, 0), (1, 0)]⟩, ⟨"Group 0".toList, [(1, 10), (2, 10)]⟩]) ∧
    drawCurve 3 1 (some [fun _ => (0 : ℚ)]) [exCurveGroup] = none ∧
    drawCurve 2 2 (some [fun _ => (0 : ℚ)]) [exCurveGroup] = none := by decide +kernel

/-! ## Example -/

/-- Six points of a grid. (Example, no code.) -/
def exDrawVerts : List (Fin 2 → ℚ) := [![0, 0], ![1, 0], ![0, 1], ![1, 1], ![2, 0], ![2, 1]]

/-- Two triangles and a square. (Example, no code.) -/
def exDrawGroups : List (ElGroup Unit) :=
  [⟨0, [[0, 1], [2, 0], [1, 2]], [[0, 1, 2], [1, 3, 2]], [(), ()]⟩,
   ⟨1, [[0, 2], [1, 3], [0, 1], [2, 3]], [[1, 4, 3, 5]], [()]⟩]

/-- The mesh of these elements. (Example, no code.) -/
def exDrawMesh : FMesh Unit (Fin 2 → ℚ) Unit :=
  { ambientDim := 2, vertices := some exDrawVerts, groups := exDrawGroups,
    lazy := ⟨some true, .missing, .missing⟩ }

/-- All flags set. (Example, no code.) -/
def exDrawAll : DrawOpts := ⟨true, true, true, true, true⟩

/-- The drawing of the example. (Example, no code.) -/
def exDrawn : Option (List (DrawCmd ℚ)) :=
  draw2d (fun g => g.kind == 1) id (fun n => if n % 2 = 0 then 0 else 1 / 2) exDrawAll exDrawMesh

example : (exDrawn.map fun c => (outlinesOf c).map fun d => d.map fun x => (x.2 0, x.2 1)) = some
    [[(0, 0), (1, 0), (0, 1), (0, 0)], [(1, 0), (1, 1), (0, 1), (1, 0)],
      [(1, 0), (2, 0), (2, 1), (1, 1), (1, 0)]] := by decide +kernel

example : (exDrawn.map fun c => (textsOf .element c).map fun x => (x.1 0, x.1 1, x.2)) = some
    [(1 / 3, 1 / 3, "0:0".toList), (2 / 3, 2 / 3, "0:1".toList), (3 / 2, 1 / 2, "1:0".toList)] := by decide +kernel

example : (exDrawn.map fun c => ((textsOf .vertex c).length, (textsOf .face c).length, (arrowsOf c).length)) =
    some (6, 10, 6) := by decide +kernel

example : (exDrawn.map limitsOf) = some [([0, 0], [2, 1])] := by decide +kernel

example : exDrawMesh.OK exDrawVerts ∧ exDrawMesh.groups ≠ [] ∧
    (∀ g ∈ exDrawMesh.groups, ∀ row ∈ g.vertexIndices, row ≠ [] ∧ ((g.kind == 1) = true → row.length = 4)) ∧
    exDrawMesh.lazy.conforming = some true ∧ exDrawMesh.lazy.nodal = .missing := by
  refine ⟨⟨rfl, ?_, ?_, ?_⟩, by decide, by decide, rfl, rfl⟩
  · intro g hg
    simp only [exDrawMesh, exDrawGroups, List.mem_cons, List.not_mem_nil, or_false] at hg
    rcases hg with rfl | rfl <;> exact ⟨rfl, by decide⟩
  · decide
  · decide

/-- C108: the hypotheses of `C108_sides_are_faces` for the second triangle and the square. -/
example : IsGlobalNr (exDrawMesh.groups.map fun g => g.vertexIndices.length) 1 0 2 ∧
    exDrawMesh.groups[1]? = some ⟨1, [[0, 2], [1, 3], [0, 1], [2, 3]], [[1, 4, 3, 5]], [()]⟩ := by
  refine ⟨⟨1, rfl, by omega, rfl⟩, rfl⟩

/-- C108: a corner strictly inside a half-plane, as in `C108_labels_inside`. -/
example : (∀ p ∈ [![0, 0], ![1, 0], ![0, 1]], (0 : ℚ) ≤ 0 * p 0 + 1 * p 1) ∧
    (0 : ℚ) < 0 * (![0, 1] : Fin 2 → ℚ) 0 + 1 * (![0, 1] : Fin 2 → ℚ) 1 := by decide +kernel

end Meshmode
