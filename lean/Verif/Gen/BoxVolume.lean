import Verif.Gen.Rect
import Verif.Mesh.Orient
import Mathlib.LinearAlgebra.Matrix.Determinant.Basic
import Mathlib.Tactic.FieldSimp

/-!
# Box meshes are positively oriented and have the volume of the box (C128)

`generate_box_mesh` (meshmode/mesh/generation.py:1191-1637) and `generate_regular_rect_mesh` (1644-1716), examined with
`find_volume_mesh_element_orientations` (meshmode/mesh/processing.py:576-678).
-/
namespace Meshmode

variable {N A K : Type} [Field K]

/-! ## Model -/

/-- The columns of `vertices` as points, meshmode/mesh/generation.py:1283-1288. -/
def boxPoints (d : Nat) (axes : List (List K)) (kind : BoxKind) : List (Fin d → K) :=
  (boxVertices axes kind).map fun v i => v.getD i 0

/-- The shape of the elements (`group_cls`, meshmode/mesh/generation.py:1537-1539) with the unit vertices of modepy,
the first coordinate varying fastest in tensor product elements. -/
def boxGShape : Nat → BoxKind → GShape
  | 1, .tensor => .tensor [[-1], [1]]
  | 2, .tensor => .tensor [[-1, -1], [1, -1], [-1, 1], [1, 1]]
  | 3, .tensor => .tensor [[-1, -1, -1], [1, -1, -1], [-1, 1, -1], [1, 1, -1], [-1, -1, 1], [1, -1, 1], [-1, 1, 1],
      [1, 1, 1]]
  | d, _ => .simplex d

/-- The mesh that `make_mesh` is called for, meshmode/mesh/generation.py:1611-1616; what it knows about adjacency is a
parameter. -/
def boxMesh (d : Nat) (axes : List (List K)) (kind : BoxKind) (g : ElGroup N)
    (lazy : LazyMesh (List Nat × List Nat) (List (List (Fag A)))) : FMesh N (Fin d → K) A where
  ambientDim := d
  vertices := some (boxPoints d axes kind)
  groups := [g]
  lazy := lazy

/-! ## Specification -/

/-- The length of an axis: last minus first coordinate. (Specification or proof vocabulary, no code.) -/
def axisLength (ax : List K) : K := ax.getLastD 0 - ax.headD 0

/-- The volume of the box. (Specification or proof vocabulary, no code.) -/
def boxVolume (axes : List (List K)) : K := (axes.map axisLength).prod

/-- The width of cell `i` along an axis. (Specification or proof vocabulary, no code.) -/
def cellWidth (ax : List K) (i : Nat) : K := ax.getD (i + 1) 0 - ax.getD i 0

/-- The volume of the parallelepiped spanned by an element over the volume of its cell: half for "X" meshes.
(Specification or proof vocabulary, no code.) -/
def boxShare : BoxKind → K
  | .crossed => 1 / 2
  | _ => 1

/-- The volume of the parallelepiped spanned by an element over the volume of the element: the factorial of the
dimension for simplices. (Specification or proof vocabulary, no code.) -/
def boxFactor (d : Nat) : BoxKind → Nat
  | .tensor => 1
  | _ => d.factorial

/-! ## The elements of a cell -/

section
variable [LinearOrder K] [IsStrictOrderedRing K]

theorem rowPoint_box {T : BoxTpl} {axes : List (List K)} {kind : BoxKind} {c : P3}
    (hok : TplOK T kind)
    (hdim : BoxDims T.dim (boxShape (axes.map List.length)) (boxCellShape (axes.map List.length)))
    (hc : (boxCellShape (axes.map List.length)).InShape c) {sub : List P3} (hs : sub ∈ T.subs) (k : Nat) :
    rowPoint (boxPoints axes.length axes kind) (sub.map fun o =>
      boxVertexNr (boxShape (axes.map List.length)) (boxCellShape (axes.map List.length)) (c.at2 o)) k =
      sub[k]?.map fun o (i : Fin axes.length) => (axes.getD i []).getD (c.get i) 0 + offCoord i o * cellWidth (axes.getD i []) (c.get i) := by
  unfold rowPoint
  rw [List.getElem?_map]
  cases ho : sub[k]? with
  | none => rfl
  | some o =>
    have hm := List.mem_of_getElem? ho
    have hv := vertexAt_at2 hok hdim hc hs hm
    simp only [Option.map_some, Option.bind_some]
    unfold boxPoints boxVertices
    simp only [List.getElem?_map]
    rw [boxPositions_getElem? hv]
    simp only [Option.map_some, Option.some.injEq]
    funext i
    have hi : i.1 < axes.length := i.2
    rw [List.getD_eq_getElem?_getD, List.getElem?_map, List.getElem?_zipIdx, List.getElem?_eq_getElem hi]
    simp only [Option.map_some, Option.getD_some, Nat.zero_add]
    rw [boxCoord_at2 _ _ _ _ ?_]
    · rw [List.getD_eq_getElem?_getD (l := axes), List.getElem?_eq_getElem hi]
      rfl
    · obtain ⟨hx, hy, hz, _⟩ := hok.1 sub hs o hm
      unfold P3.get
      split <;> assumption

theorem box_spans {d : Nat} {kind : BoxKind} {T : BoxTpl} (hT : boxTpl d kind = some T) :
    findVertex (unitVerts (boxGShape d kind)) (List.replicate d (-1)) = 0 ∧ ∀ i < d,
      findVertex (unitVerts (boxGShape d kind)) ((List.replicate d (-1)).set i 1) =
        if kind = .tensor then 2 ^ i else i + 1 := by
  match d, kind, hT with
  | 1, .tensor, _ => decide
  | 1, .simplex, _ => decide
  | 2, .tensor, _ => decide
  | 2, .simplex, _ => decide
  | 2, .crossed, _ => decide
  | 3, .tensor, _ => decide
  | 3, .simplex, _ => decide

omit [LinearOrder K] [IsStrictOrderedRing K] in
theorem elemOrient_points {d : Nat} {vs : List (Fin d → K)} {uv : List (List Int)} {row : List Nat} {p0 : Fin d → K}
    {ps : Nat → Fin d → K} (h0 : rowPoint vs row (findVertex uv (List.replicate d (-1))) = some p0)
    (h1 : ∀ i < d, rowPoint vs row (findVertex uv ((List.replicate d (-1)).set i 1)) = some (ps i)) :
    elemOrient vs uv row = some (orientSign d * Matrix.det (Matrix.of fun i j : Fin d => ps i j - p0 j)) := by
  unfold elemOrient
  rw [h0, Option.bind_some]
  have h2 : ((List.range d).mapM fun i => rowPoint vs row (findVertex uv ((List.replicate d (-1)).set i 1))) =
      some ((List.range d).map ps) := by
    exact mapM_some_eq_map fun i hi => h1 i (List.mem_range.1 hi)
  rw [h2, Option.map_some]
  congr 3
  ext i j
  simp [List.getD_eq_getElem?_getD]

/-- The entry of a list of three. (Specification or proof vocabulary, no code.) -/
def pick (a b c : P3) : Nat → P3
  | 0 => a
  | 1 => b
  | _ => c

theorem box_one {sub : List P3} {ps : Nat → P3} {t : Nat → Nat} (h : sub[t 0]? = some (ps 0)) :
    ∀ i < 1, sub[t i]? = some (ps i) := by
  intro i hi
  obtain rfl : i = 0 := by omega
  exact h

theorem box_two {sub : List P3} {a b : P3} {t : Nat → Nat} (h : sub[t 0]? = some a) (h' : sub[t 1]? = some b) :
    ∀ i < 2, sub[t i]? = some (pick a b b i) := by
  intro i hi
  obtain rfl | rfl : i = 0 ∨ i = 1 := by omega
  · exact h
  · exact h'

theorem box_three {sub : List P3} {a b c : P3} {t : Nat → Nat} (h : sub[t 0]? = some a) (h' : sub[t 1]? = some b)
    (h'' : sub[t 2]? = some c) : ∀ i < 3, sub[t i]? = some (pick a b c i) := by
  intro i hi
  obtain rfl | rfl | rfl : i = 0 ∨ i = 1 ∨ i = 2 := by omega
  · exact h
  · exact h'
  · exact h''

theorem box_elemOrient {T : BoxTpl} {axes : List (List K)} {kind : BoxKind} {c : P3}
    (hT : boxTpl axes.length kind = some T) (hok : TplOK T kind)
    (hdim : BoxDims T.dim (boxShape (axes.map List.length)) (boxCellShape (axes.map List.length)))
    (hc : (boxCellShape (axes.map List.length)).InShape c) {sub : List P3} (hs : sub ∈ T.subs) :
    elemOrient (boxPoints axes.length axes kind) (unitVerts (boxGShape axes.length kind)) (sub.map fun o =>
      boxVertexNr (boxShape (axes.map List.length)) (boxCellShape (axes.map List.length)) (c.at2 o)) =
      some (boxShare kind * ∏ i : Fin axes.length, cellWidth (axes.getD i []) (c.get i)) := by
  have hrow := rowPoint_box hok hdim hc hs
  obtain ⟨h0, h1⟩ := box_spans hT
  have key : ∀ (p0 : P3) (ps : Nat → P3), sub[0]? = some p0 →
      (∀ i < axes.length, sub[if kind = .tensor then 2 ^ i else i + 1]? = some (ps i)) →
      elemOrient (boxPoints axes.length axes kind) (unitVerts (boxGShape axes.length kind)) (sub.map fun o =>
        boxVertexNr (boxShape (axes.map List.length)) (boxCellShape (axes.map List.length)) (c.at2 o)) =
      some (orientSign axes.length * Matrix.det (Matrix.of fun i j : Fin axes.length =>
        (offCoord (K := K) j (ps i) - offCoord j p0) * cellWidth (axes.getD j []) (c.get j))) := by
    intro p0 ps g0 g1
    rw [elemOrient_points (ps := fun i (j : Fin axes.length) => (axes.getD j []).getD (c.get j) 0 +
      offCoord j (ps i) * cellWidth (axes.getD j []) (c.get j)) (by rw [h0, hrow, g0]; rfl)
      (fun i hi => by rw [h1 i hi, hrow, g1 i hi]; rfl)]
    congr 3
    ext i j
    simp only [Matrix.of_apply]
    ring
  clear hrow h0 h1 hok hdim hc
  match axes, kind, hT with
  | [ax], .tensor, hT =>
    obtain rfl := Option.some.inj hT
    simp only [List.mem_singleton] at hs
    subst hs
    rw [key _ _ rfl (box_one (ps := fun _ => ⟨2, 0, 0⟩) rfl)]
    simp [orientSign, boxShare, offCoord, P3.get]
  | [ax], .simplex, hT =>
    obtain rfl := Option.some.inj hT
    simp only [List.mem_singleton] at hs
    subst hs
    rw [key _ _ rfl (box_one (ps := fun _ => ⟨2, 0, 0⟩) rfl)]
    simp [orientSign, boxShare, offCoord, P3.get]
  | [ax, ay], .tensor, hT =>
    obtain rfl := Option.some.inj hT
    simp only [List.mem_singleton] at hs
    subst hs
    rw [key _ _ rfl (box_two rfl rfl)]
    simp [orientSign, boxShare, offCoord, P3.get, Matrix.det_fin_two, pick]
  | [ax, ay], .simplex, hT =>
    obtain rfl := Option.some.inj hT
    simp only [List.mem_cons, List.not_mem_nil, or_false] at hs
    rcases hs with rfl | rfl <;>
    · rw [key _ _ rfl (box_two rfl rfl)]
      simp [orientSign, boxShare, offCoord, P3.get, Matrix.det_fin_two, pick]
  | [ax, ay], .crossed, hT =>
    obtain rfl := Option.some.inj hT
    simp only [List.mem_cons, List.not_mem_nil, or_false] at hs
    rcases hs with rfl | rfl | rfl | rfl <;>
    · rw [key _ _ rfl (box_two rfl rfl)]
      simp [orientSign, boxShare, offCoord, P3.get, Matrix.det_fin_two, pick]
      ring
  | [ax, ay, az], .tensor, hT =>
    obtain rfl := Option.some.inj hT
    simp only [List.mem_singleton] at hs
    subst hs
    rw [key _ _ rfl (box_three rfl rfl rfl)]
    simp [orientSign, boxShare, offCoord, P3.get, Matrix.det_fin_three, pick, Fin.prod_univ_three]
    ring
  | [ax, ay, az], .simplex, hT =>
    obtain rfl := Option.some.inj hT
    simp only [List.mem_cons, List.not_mem_nil, or_false] at hs
    rcases hs with rfl | rfl | rfl | rfl | rfl | rfl <;>
    · rw [key _ _ rfl (box_three rfl rfl rfl)]
      simp [orientSign, boxShare, offCoord, P3.get, Matrix.det_fin_three, pick, Fin.prod_univ_three]
      ring

/-! ## Sums over the cells -/

omit [LinearOrder K] [IsStrictOrderedRing K] in
theorem sum_cellWidth (ax : List K) : ((List.range (ax.length - 1)).map (cellWidth ax)).sum = axisLength ax := by
  have key : ∀ n, n + 1 ≤ ax.length → ((List.range n).map (cellWidth ax)).sum = ax.getD n 0 - ax.getD 0 0 := by
    intro n
    induction n with
    | zero => simp
    | succ n ih =>
      intro h
      rw [List.range_succ, List.map_append, List.sum_append, ih (by omega)]
      simp only [List.map_cons, List.map_nil, List.sum_cons, List.sum_nil, add_zero, cellWidth]
      ring
  cases ax with
  | nil => simp [axisLength]
  | cons a l =>
    have h := key l.length (by simp)
    simp only [List.length_cons, Nat.add_sub_cancel]
    rw [h, axisLength]
    congr 1
    rw [List.getD_eq_getElem?_getD, List.getLastD_eq_getLast?, List.getLast?_eq_getElem?]
    rfl

omit [LinearOrder K] [IsStrictOrderedRing K] in
theorem sum_indices (n : P3) (f : P3 → K) : (n.indices.map f).sum = ((List.range n.x).map fun i =>
    ((List.range n.y).map fun j => ((List.range n.z).map fun k => f ⟨i, j, k⟩).sum).sum).sum := by
  unfold P3.indices
  simp only [List.flatMap_def, List.map_flatten, List.sum_flatten, List.map_map, Function.comp_def]

omit [LinearOrder K] [IsStrictOrderedRing K] in
theorem sum_cells {axes : List (List K)} (h1 : 1 ≤ axes.length) (h3 : axes.length ≤ 3) :
    ((boxCellShape (axes.map List.length)).indices.map fun c =>
      ∏ i : Fin axes.length, cellWidth (axes.getD i []) (c.get i)).sum = boxVolume axes := by
  rw [sum_indices]
  match axes, h1, h3 with
  | [ax], _, _ =>
    simp only [List.length_singleton, Fin.prod_univ_one]
    have h := sum_cellWidth ax
    simpa [boxCellShape, boxVolume, P3.get] using h
  | [ax, ay], _, _ =>
    simp [boxCellShape, boxVolume, P3.get, ← sum_cellWidth, List.sum_map_mul_left, List.sum_map_mul_right]
  | [ax, ay, az], _, _ =>
    simp [boxCellShape, boxVolume, P3.get, ← sum_cellWidth, List.sum_map_mul_left, List.sum_map_mul_right,
      Fin.prod_univ_three, mul_assoc]

theorem boxGShape_cases {d : Nat} {kind : BoxKind} {T : BoxTpl} (hT : boxTpl d kind = some T) :
    boxGShape d kind ≠ .other ∧ (boxGShape d kind).dim = d ∧ d ≠ 0 := by
  match d, kind, hT with
  | 1, .tensor, _ => exact ⟨by simp [boxGShape], rfl, by decide⟩
  | 1, .simplex, _ => exact ⟨by simp [boxGShape], rfl, by decide⟩
  | 2, .tensor, _ => exact ⟨by simp [boxGShape], rfl, by decide⟩
  | 2, .simplex, _ => exact ⟨by simp [boxGShape], rfl, by decide⟩
  | 2, .crossed, _ => exact ⟨by simp [boxGShape], rfl, by decide⟩
  | 3, .tensor, _ => exact ⟨by simp [boxGShape], rfl, by decide⟩
  | 3, .simplex, _ => exact ⟨by simp [boxGShape], rfl, by decide⟩

/-! ## Properties -/

/-- C128: find_volume_mesh_element_orientations gives for each element of a cell the product of the widths of the cell,
halved for "X" meshes, in the order of the cells. -/
theorem C128_orientations {nodeOf : List Nat → N} {axes : List (List K)} {kind : BoxKind} {g : ElGroup N}
    (h : generateBox nodeOf (axes.map List.length) kind = some g) {shape : Nat → GShape}
    (hshape : shape g.kind = boxGShape axes.length kind) (tol : Bool)
    (lazy : LazyMesh (List Nat × List Nat) (List (List (Fag A)))) :
    ∃ T, boxTpl axes.length kind = some T ∧ meshOrient shape tol (boxMesh axes.length axes kind g lazy) =
      .ok ((boxCellShape (axes.map List.length)).indices.flatMap fun c => List.replicate T.subs.length
        (some (boxShare kind * ∏ i : Fin axes.length, cellWidth (axes.getD i []) (c.get i)))) := by
  obtain ⟨T, hT, hd, hok, hdim, rfl⟩ := generateBox_eq h
  rw [List.length_map] at hT
  refine ⟨T, hT, ?_⟩
  obtain ⟨c1, c2, c3⟩ := boxGShape_cases hT
  have hg : groupOrient shape (boxPoints axes.length axes kind) (boxGroup nodeOf (boxShape (axes.map List.length))
      (boxCellShape (axes.map List.length)) T) = .ok ((boxCellShape (axes.map List.length)).indices.flatMap fun c =>
        List.replicate T.subs.length (boxShare kind * ∏ i : Fin axes.length, cellWidth (axes.getD i []) (c.get i))) := by
    have hm : (boxElements (boxShape (axes.map List.length)) (boxCellShape (axes.map List.length)) T).mapM
        (elemOrient (boxPoints axes.length axes kind) (unitVerts (boxGShape axes.length kind))) =
        some ((boxCellShape (axes.map List.length)).indices.flatMap fun c => List.replicate T.subs.length
          (boxShare kind * ∏ i : Fin axes.length, cellWidth (axes.getD i []) (c.get i))) := by
      unfold boxElements
      have hmem : ∀ c ∈ (boxCellShape (axes.map List.length)).indices,
          (boxCellShape (axes.map List.length)).InShape c := fun c hc => mem_indices.1 hc
      generalize (boxCellShape (axes.map List.length)).indices = cells at hmem ⊢
      induction cells with
      | nil => rfl
      | cons c cells ih =>
        rw [List.flatMap_cons, List.mapM_append, ih fun c' hc' => hmem c' (List.mem_cons_of_mem _ hc'),
          List.flatMap_cons]
        have h1 : (T.subs.map fun sub => sub.map fun o => boxVertexNr (boxShape (axes.map List.length))
            (boxCellShape (axes.map List.length)) (c.at2 o)).mapM
            (elemOrient (boxPoints axes.length axes kind) (unitVerts (boxGShape axes.length kind))) =
            some (List.replicate T.subs.length
              (boxShare kind * ∏ i : Fin axes.length, cellWidth (axes.getD i []) (c.get i))) := by
          rw [mapM_some_eq_map (g := fun _ => boxShare kind * ∏ i : Fin axes.length, cellWidth (axes.getD i []) (c.get i))]
          · rw [List.map_const', List.length_map]
          · intro row hrow
            obtain ⟨sub, hs, rfl⟩ := List.mem_map.1 hrow
            exact box_elemOrient hT hok hdim (hmem c List.mem_cons_self) hs
        rw [h1]
        rfl
    unfold groupOrient
    rw [hshape]
    have hv : (boxGroup nodeOf (boxShape (axes.map List.length)) (boxCellShape (axes.map List.length)) T).vertexIndices =
        boxElements (boxShape (axes.map List.length)) (boxCellShape (axes.map List.length)) T := rfl
    rw [hv]
    split
    · rename_i heq
      exact absurd heq c1
    · rw [if_neg (not_not.2 c2), if_neg c3, hm]
  unfold meshOrient boxMesh
  simp only [List.isEmpty_cons, Bool.false_eq_true, if_false, orientLoop]
  rw [hg]
  simp [List.map_flatMap]

/-- C128: if the coordinates increase along all axes, all elements are positively oriented. -/
theorem C128_positive {nodeOf : List Nat → N} {axes : List (List K)} {kind : BoxKind} {g : ElGroup N}
    (h : generateBox nodeOf (axes.map List.length) kind = some g) (hinc : ∀ ax ∈ axes, ax.Pairwise (· < ·))
    {shape : Nat → GShape} (hshape : shape g.kind = boxGShape axes.length kind) (tol : Bool)
    (lazy : LazyMesh (List Nat × List Nat) (List (List (Fag A)))) :
    ∃ os, meshOrient shape tol (boxMesh axes.length axes kind g lazy) = .ok os ∧ os.length = g.nelements ∧
      ∀ o ∈ os, ∃ x, o = some x ∧ 0 < x := by
  obtain ⟨T, hT, hos⟩ := C128_orientations h hshape tol lazy
  refine ⟨_, hos, ?_, ?_⟩
  · obtain ⟨T', hT', _, _, _, rfl⟩ := generateBox_eq h
    rw [List.length_map] at hT'
    obtain rfl := Option.some.inj (hT.symm.trans hT')
    simp [boxGroup, ElGroup.nelements, boxElements, List.length_flatMap]
  · intro o ho
    obtain ⟨c, hc, ho⟩ := List.mem_flatMap.1 ho
    obtain ⟨_, rfl⟩ := List.mem_replicate.1 ho
    refine ⟨_, rfl, ?_⟩
    obtain ⟨c1, c2, c3⟩ := mem_indices.1 hc
    refine mul_pos ?_ (Finset.prod_pos fun i _ => ?_)
    · cases kind <;> simp [boxShare]
    · have hi : i.1 < axes.length := i.2
      have hlt : c.get i + 1 < axes[i.1].length := by
        have h3 := (boxGShape_cases hT).2.2
        match i.1, hi with
        | 0, hi =>
          simp only [boxCellShape, List.getElem?_map, List.getElem?_eq_getElem hi, Option.map_some, Option.getD_some] at c1
          simp only [P3.get]
          omega
        | 1, hi =>
          simp only [boxCellShape, List.getElem?_map, List.getElem?_eq_getElem hi, Option.map_some, Option.getD_some] at c2
          simp only [P3.get]
          omega
        | 2, hi =>
          simp only [boxCellShape, List.getElem?_map, List.getElem?_eq_getElem hi, Option.map_some, Option.getD_some] at c3
          simp only [P3.get]
          omega
        | k + 3, hi =>
          match axes, kind, hT, hi with
          | [_], .tensor, _, hi => simp at hi
          | [_], .simplex, _, hi => simp at hi
          | [_, _], .tensor, _, hi => simp at hi
          | [_, _], .simplex, _, hi => simp at hi
          | [_, _], .crossed, _, hi => simp at hi
          | [_, _, _], .tensor, _, hi => simp at hi
          | [_, _, _], .simplex, _, hi => simp at hi
      have hp := List.pairwise_iff_getElem.1 (hinc _ (List.getElem_mem hi)) (c.get i) (c.get i + 1) (by omega) hlt
        (by omega)
      unfold cellWidth
      rw [List.getD_eq_getElem?_getD (l := axes), List.getElem?_eq_getElem hi, Option.getD_some,
        List.getD_eq_getElem?_getD, List.getElem?_eq_getElem hlt, List.getD_eq_getElem?_getD,
        List.getElem?_eq_getElem (by omega)]
      simpa using hp

/-- C128: the orientations add up to the volume of the box, times the factorial of the dimension for simplices
(whose volume is that part of the parallelepiped they span). -/
theorem C128_volume {nodeOf : List Nat → N} {axes : List (List K)} {kind : BoxKind} {g : ElGroup N}
    (h : generateBox nodeOf (axes.map List.length) kind = some g) {shape : Nat → GShape}
    (hshape : shape g.kind = boxGShape axes.length kind) (tol : Bool)
    (lazy : LazyMesh (List Nat × List Nat) (List (List (Fag A)))) :
    ∃ xs : List K, meshOrient shape tol (boxMesh axes.length axes kind g lazy) = .ok (xs.map some) ∧
      xs.sum = boxFactor axes.length kind * boxVolume axes := by
  obtain ⟨T, hT, hos⟩ := C128_orientations h hshape tol lazy
  refine ⟨(boxCellShape (axes.map List.length)).indices.flatMap fun c => List.replicate T.subs.length
        (boxShare kind * ∏ i : Fin axes.length, cellWidth (axes.getD i []) (c.get i)), ?_, ?_⟩
  · rw [hos]
    simp [List.map_flatMap]
  · have h13 : 1 ≤ axes.length ∧ axes.length ≤ 3 ∧ (T.subs.length : K) * boxShare kind = boxFactor axes.length kind := by
      generalize axes.length = d at hT
      match d, kind, hT with
      | 1, .tensor, hT => obtain rfl := Option.some.inj hT; simp [boxShare, boxFactor]
      | 1, .simplex, hT => obtain rfl := Option.some.inj hT; simp [boxShare, boxFactor]
      | 2, .tensor, hT => obtain rfl := Option.some.inj hT; simp [boxShare, boxFactor]
      | 2, .simplex, hT => obtain rfl := Option.some.inj hT; simp [boxShare, boxFactor]
      | 2, .crossed, hT => obtain rfl := Option.some.inj hT; simp [boxShare, boxFactor]; norm_num
      | 3, .tensor, hT => obtain rfl := Option.some.inj hT; simp [boxShare, boxFactor]
      | 3, .simplex, hT => obtain rfl := Option.some.inj hT; simp [boxShare, boxFactor, Nat.factorial]
    rw [← sum_cells h13.1 h13.2.1, ← h13.2.2, List.flatMap_def, List.sum_flatten, List.map_map]
    rw [← List.sum_map_mul_left]
    congr 1
    apply List.map_congr_left
    intro c _
    simp [mul_assoc]

theorem boxVolume_regular {a b : List K} {e : List Nat} (he : ∀ k ∈ e, 0 < k)
    (hb : b.length = a.length) (hl : e.length = a.length) {axes : List (List K)}
    (hax : regularRect a b (some (e.map fun k : Nat => (k : Int))) none none = .ok axes) :
    axes.length = a.length ∧ boxVolume axes = (List.zipWith (fun x y => y - x) a b).prod := by
  obtain ⟨axes', h1, h2, h3⟩ := C74_elements he hb hl
  obtain rfl : axes' = axes := by rw [h1] at hax; exact Except.ok.inj hax
  refine ⟨h2, ?_⟩
  unfold boxVolume
  congr 1
  refine List.ext_getElem (by simp [h2, hb]) fun i hi1 hi2 => ?_
  simp only [List.length_map] at hi1
  have hia : i < a.length := by omega
  obtain ⟨ax, e1, e2, e3⟩ := h3 i _ _ _ (List.getElem?_eq_getElem hia) (List.getElem?_eq_getElem (by omega))
    (List.getElem?_eq_getElem (by omega))
  obtain ⟨_, rfl⟩ := List.getElem?_eq_some_iff.1 e1
  have hk := he _ (List.getElem_mem (l := e) (n := i) (by omega))
  have hK : ((e[i]'(by omega) : Nat) : K) ≠ 0 := by exact_mod_cast hk.ne'
  rw [List.getElem_map, List.getElem_zipWith]
  have hne : axes'[i] ≠ [] := by
    intro h0
    rw [h0] at e2
    simp at e2
  have hf := e3 0 _ (List.getElem?_eq_getElem (by omega))
  have hz := e3 (e[i]'(by omega)) _ (List.getElem?_eq_getElem (by omega))
  unfold axisLength
  rw [List.getLastD_eq_getLast?, List.getLast?_eq_getElem?, e2, Nat.add_sub_cancel,
    List.getElem?_eq_getElem (by omega), Option.getD_some, List.headD_eq_head?_getD, List.head?_eq_getElem?,
    List.getElem?_eq_getElem (by omega), Option.getD_some, hf, hz]
  rw [mul_div_cancel₀ _ hK]
  simp

/-- C128: the orientations of a regular box mesh from `a` to `b` with `e` elements along the axes add up to the volume
of the box between these points. -/
theorem C128_regular {nodeOf : List Nat → N} {a b : List K} {e : List Nat} {kind : BoxKind} {g : ElGroup N}
    (he : ∀ k ∈ e, 0 < k) (hb : b.length = a.length) (hl : e.length = a.length) {axes : List (List K)}
    (hax : regularRect a b (some (e.map fun k : Nat => (k : Int))) none none = .ok axes)
    (h : generateBox nodeOf (axes.map List.length) kind = some g) {shape : Nat → GShape}
    (hshape : shape g.kind = boxGShape axes.length kind) (tol : Bool)
    (lazy : LazyMesh (List Nat × List Nat) (List (List (Fag A)))) :
    ∃ xs : List K, meshOrient shape tol (boxMesh axes.length axes kind g lazy) = .ok (xs.map some) ∧
      xs.sum = boxFactor a.length kind * (List.zipWith (fun x y => y - x) a b).prod := by
  obtain ⟨xs, h1, h2⟩ := C128_volume h hshape tol lazy
  obtain ⟨h3, h4⟩ := boxVolume_regular he hb hl hax
  exact ⟨xs, h1, by rw [h2, h3, h4]⟩

/-! ## Examples -/

/-- The axes of a box of width 3 and height 2. (Example, no code.) -/
def exBoxAxes : List (List ℚ) := [[0, 1, 3], [0, 2]]

example : ∃ g : ElGroup (List Nat), generateBox id (exBoxAxes.map List.length) .simplex = some g ∧ g.nelements = 4 ∧
    (∀ ax ∈ exBoxAxes, ax.Pairwise (· < ·)) ∧ boxGShape exBoxAxes.length .simplex = .simplex 2 :=
  ⟨_, rfl, by decide +kernel, by decide +kernel, rfl⟩

example (g : ElGroup (List Nat)) (h : generateBox id (exBoxAxes.map List.length) .simplex = some g)
    (lazy : LazyMesh (List Nat × List Nat) (List (List (Fag Unit)))) :
    ∃ T, boxTpl 2 .simplex = some T ∧ meshOrient (fun _ => .simplex 2) true (boxMesh 2 exBoxAxes .simplex g lazy) =
      .ok [some 2, some 2, some 4, some 4] := by
  obtain ⟨T, h1, h2⟩ := C128_orientations (shape := fun _ => .simplex 2) h rfl true lazy
  refine ⟨T, h1, h2.trans ?_⟩
  obtain rfl := Option.some.inj h1
  congr 1
  decide +kernel

example : boxFactor 2 .simplex * boxVolume exBoxAxes = 12 ∧ boxFactor 2 .crossed * boxVolume exBoxAxes = 12 ∧
    boxFactor 2 .tensor * boxVolume exBoxAxes = 6 := by decide +kernel

example : regularRect [(0 : ℚ), 1] [3, 2] (some ([3, 1].map fun k : Nat => (k : Int))) none none =
    .ok [[0, 1, 2, 3], [1, 2]] ∧ (generateBox id [4, 2] .crossed).map ElGroup.nelements = some 12 := by
  decide +kernel

end
end Meshmode
