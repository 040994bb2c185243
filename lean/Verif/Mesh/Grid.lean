import Verif.Mesh.Affine
import Verif.Mesh.MergeProps
import Mathlib.Tactic.LinearCombination
import Mathlib.Tactic.Linarith

/-!
# Grids of copies of a mesh (C50)

`make_mesh_grid`, meshmode/mesh/processing.py:1523-1558.
-/
namespace Meshmode

variable {d : Nat} {K : Type} [Field K]

/-- `itertools.product(*(range(n) for n in shape))`. Code: meshmode/mesh/processing.py:1550-1558. -/
def productRanges : List Nat → List (List Nat)
  | [] => [[]]
  | n :: ns => (List.range n).flatMap fun i => (productRanges ns).map (i :: ·)

/-- `sum((i * o for i, o in zip(index, offset)), offset[0])`,
meshmode/mesh/processing.py:1555. -/
def gridShift (o0 : Fin d → K) (offset : List (Fin d → K)) (ix : List Nat) : Fin d → K :=
  (ix.zip offset).foldl (fun acc p => acc + (p.1 : K) • p.2) o0

/-- The default `offset`, meshmode/mesh/processing.py:1537-1543; `size` is the extent of the mesh
(`find_bounding_box` is not modelled). -/
def defaultOffset (size : Fin d → K) : List (Fin d → K) :=
  List.ofFn fun i j => (if j = i then 1 else 0) * (size i + size i / 4)

/-- Errors of `make_mesh_grid`. Code: meshmode/mesh/processing.py:1535-1549. -/
inductive GridErr where
  /-- `ValueError("grid shape length must match mesh ambient dimension")` -/
  | shape
  /-- `ValueError("must provide an offset per dimension")` -/
  | offset
  /-- `IndexError` for `offset[0]` in dimension 0 -/
  | index
  /-- `affine_map` raises -/
  | unavailable
  | merge (e : MergeErr)

/-- `make_mesh_grid`, meshmode/mesh/processing.py:1523-1558; the check on the size of the offset
vectors is in their type. -/
def makeMeshGrid (shape : List Nat) (offset : List (Fin d → K)) (m : PMesh d K) :
    Except GridErr (PMesh d K) :=
  if shape.length ≠ d then .error .shape
  else if offset.length ≠ d then .error .offset
  else match offset.head? with
    | none => .error .index
    | some o0 =>
      match (productRanges shape).mapM fun ix =>
          affineMapMesh ⟨none, some (gridShift o0 offset ix)⟩ m with
      | none => .error .unavailable
      | some ms =>
        match mergeDisjoint ms false with
        | .error e => .error (.merge e)
        | .ok M => .ok M

/-! ### Specification -/

/-- Where copy `ix` belongs: `ix[0]*offset[0] + ix[1]*offset[1] + …`.
(Specification or proof vocabulary, no code.) -/
def gridPlace (offset : List (Fin d → K)) (ix : List Nat) : Fin d → K :=
  ((ix.zip offset).map fun p => (p.1 : K) • p.2).sum

/-- A group moved by `b`, its vertex numbers raised by `base`.
(Specification or proof vocabulary, no code.) -/
def movedGroup (b : Fin d → K) (base : Nat) (g : ElGroup (List (Fin d → K))) :
    ElGroup (List (Fin d → K)) :=
  ⟨g.kind, g.fvi, g.vertexIndices.map fun row => row.map (· + base),
    g.nodes.map fun el => el.map (· + b)⟩

/-- C50: the copies are numbered by all multi-indices within the shape, each once. -/
theorem C50_indices (shape : List Nat) :
    (productRanges shape).Nodup ∧ ∀ ix, ix ∈ productRanges shape ↔
      List.Forall₂ (fun i n => i < n) ix shape := by
  induction shape with
  | nil =>
    refine ⟨by simp [productRanges], fun ix => ?_⟩
    simp [productRanges]
  | cons n ns ih =>
    constructor
    · rw [productRanges, List.nodup_flatMap]
      refine ⟨fun i _ => ih.1.map (by intro a b h; simpa using h), ?_⟩
      refine (List.nodup_range (n := n)).imp ?_
      intro a b hab x hx hx'
      obtain ⟨y, _, rfl⟩ := List.mem_map.1 hx
      obtain ⟨z, _, hz⟩ := List.mem_map.1 hx'
      simp only [List.cons.injEq] at hz
      exact hab hz.1.symm
    · intro ix
      rw [productRanges, List.mem_flatMap]
      constructor
      · rintro ⟨i, hi, h⟩
        obtain ⟨y, hy, rfl⟩ := List.mem_map.1 h
        exact .cons (List.mem_range.1 hi) ((ih.2 y).1 hy)
      · intro h
        cases h with
        | cons h1 h2 => exact ⟨_, List.mem_range.2 h1, List.mem_map.2 ⟨_, (ih.2 _).2 h2, rfl⟩⟩

theorem gridShift_eq (o0 : Fin d → K) (offset : List (Fin d → K)) (ix : List Nat) :
    gridShift o0 offset ix = gridPlace offset ix + o0 := by
  unfold gridShift gridPlace
  generalize ix.zip offset = l
  induction l generalizing o0 with
  | nil => simp
  | cons p l ih =>
    rw [List.foldl_cons, ih, List.map_cons, List.sum_cons]
    abel

theorem affineMap_shift {b : Fin d → K} {m m' : PMesh d K}
    (h : affineMapMesh ⟨none, some b⟩ m = some m') :
    m'.vertices = m.vertices.map (fun vs => vs.map (· + b)) ∧
    m'.groups = m.groups.map fun g => { g with nodes := g.nodes.map fun el => el.map (· + b) } := by
  unfold affineMapMesh at h
  simp only at h
  have happ : (⟨none, some b⟩ : AffMap d K).apply = (· + b) := rfl
  split at h
  · simp only [Option.some.injEq] at h
    subst h
    exact ⟨by simp only [mapGeometry, happ], by simp only [mapGeometry, happ]⟩
  · simp at h
  · simp only [Option.some.injEq] at h
    subst h
    exact ⟨by simp only [mapGeometry, happ], by simp only [mapGeometry, happ]⟩

theorem mapM_some_map {α β γ : Type} {f : α → Option β} {g : β → γ} {h : α → γ} {l : List α}
    {l' : List β} (hm : l.mapM f = some l') (hf : ∀ a b, f a = some b → g b = h a) :
    l'.map g = l.map h := by
  induction l generalizing l' with
  | nil =>
    simp only [List.mapM_nil, Option.pure_def, Option.some.injEq] at hm
    subst hm
    rfl
  | cons a l ih =>
    rw [List.mapM_cons] at hm
    cases hfa : f a with
    | none => simp [hfa] at hm
    | some b =>
      cases hl : l.mapM f with
      | none => simp [hfa, hl] at hm
      | some l'' =>
        simp only [hfa, hl, Option.bind_eq_bind, Option.bind_some, Option.pure_def,
          Option.some.injEq] at hm
        subst hm
        rw [List.map_cons, List.map_cons, hf a b hfa, ih hl]

theorem mergeGroups_const {N ι : Type} (n k : Nat) (L : List ι) (G : ι → List (ElGroup N)) :
    mergeGroups (L.map G) (vertBases (k * n) (L.map fun _ => n)) =
      (L.zipIdx k).flatMap fun p => (G p.1).map (shiftGroup (p.2 * n)) := by
  induction L generalizing k with
  | nil => rfl
  | cons a L ih =>
    have := ih (k + 1)
    rw [Nat.succ_mul] at this
    unfold mergeGroups at this ⊢
    simp only [List.map_cons, vertBases, List.zip_cons_cons, List.flatMap_cons, List.zipIdx_cons]
    rw [this]

/-- C50, partial: the grid has one copy of the mesh for each multi-index, in order, all moved by a
further `offset[0]` compared to where they should be. -/
theorem C50_grid_partial {shape : List Nat} {offset : List (Fin d → K)} {m M : PMesh d K}
    {vs : List (Fin d → K)} (hv : m.vertices = some vs)
    (h : makeMeshGrid shape offset m = .ok M) :
    ∃ o0, offset.head? = some o0 ∧
      M.vertices = some ((productRanges shape).flatMap fun ix =>
        vs.map (· + (gridPlace offset ix + o0))) ∧
      M.groups = (productRanges shape).zipIdx.flatMap fun p =>
        m.groups.map (movedGroup (gridPlace offset p.1 + o0) (p.2 * vs.length)) := by
  unfold makeMeshGrid at h
  split at h
  · simp at h
  · split at h
    · simp at h
    · split at h
      · simp at h
      · rename_i o0 ho
        split at h
        · simp at h
        · rename_i ms hms
          split at h
          · simp at h
          · rename_i M' hM
            simp only [Except.ok.injEq] at h
            subst h
            obtain ⟨vss, h1, h2, _, h4, _⟩ := mergeDisjoint_ok hM
            have hvss : vss = (productRanges shape).map fun ix =>
                vs.map (· + (gridPlace offset ix + o0)) := by
              have e1 : ms.map FMesh.vertices = (productRanges shape).map fun ix =>
                  some (vs.map (· + (gridPlace offset ix + o0))) :=
                mapM_some_map hms fun a b hab => by
                  rw [(affineMap_shift hab).1, hv, gridShift_eq]
                  rfl
              have e2 : vss.map some = ms.map FMesh.vertices := by
                have := mapM_some_map (g := some) (h := FMesh.vertices) h1 (fun a b hab => hab.symm)
                exact this
              have e3 : vss.map some = ((productRanges shape).map fun ix =>
                  vs.map (· + (gridPlace offset ix + o0))).map some := by
                rw [e2, e1, List.map_map]
                rfl
              exact List.map_injective_iff.2 (Option.some_injective _) e3
            have hgr : ms.map FMesh.groups = (productRanges shape).map fun ix =>
                m.groups.map fun g => { g with
                  nodes := g.nodes.map fun el => el.map (· + (gridPlace offset ix + o0)) } :=
              mapM_some_map hms fun a b hab => by
                rw [(affineMap_shift hab).2, gridShift_eq]
            refine ⟨o0, ho, ?_, ?_⟩
            · rw [h2, hvss, List.flatMap_def]
            · simp only [Bool.false_eq_true, if_false, Option.some.injEq] at h4
              rw [← h4, hgr]
              have hl : vss.map List.length = (productRanges shape).map fun _ => vs.length := by
                rw [hvss, List.map_map]
                apply List.map_congr_left
                intro ix _
                simp
              have := mergeGroups_const vs.length 0 (productRanges shape) fun ix =>
                m.groups.map fun g => { g with
                  nodes := g.nodes.map fun el => el.map (· + (gridPlace offset ix + o0)) }
              rw [Nat.zero_mul] at this
              rw [hl, this]
              congr 1
              funext p
              rw [List.map_map]
              rfl

/-- C50: relative to one another the copies are where they should be. -/
theorem C50_relative (o0 : Fin d → K) (offset : List (Fin d → K)) (ix ix' : List Nat) :
    gridShift o0 offset ix - gridShift o0 offset ix' = gridPlace offset ix - gridPlace offset ix' := by
  rw [gridShift_eq, gridShift_eq]
  abel

/-- C50: the grid is made whenever shape and offsets have the mesh's dimension, no axis has length
zero, and the mesh has vertices and facial adjacency that has not been disabled. -/
theorem C50_defined {shape : List Nat} {offset : List (Fin d → K)} {m : PMesh d K}
    {vs : List (Fin d → K)} (hv : m.vertices = some vs) (hd : 0 < d) (hs : shape.length = d)
    (ho : offset.length = d) (hpos : ∀ n ∈ shape, 0 < n) (hf : m.lazy.facial ≠ .disabled) :
    ∃ M, makeMeshGrid shape offset m = .ok M := by
  have hmap : ∀ b, ∃ m', affineMapMesh ⟨none, some b⟩ m = some m' ∧ m'.ambientDim = m.ambientDim ∧
      m'.vertices.isSome := by
    intro b
    unfold affineMapMesh
    simp only
    split
    · exact ⟨_, rfl, rfl, by simp [mapGeometry, hv]⟩
    · rename_i h; exact absurd h hf
    · exact ⟨_, rfl, rfl, by simp [mapGeometry, hv]⟩
  have hne : productRanges shape ≠ [] := by
    refine List.ne_nil_of_mem (((C50_indices shape).2 (shape.map fun _ => 0)).2 ?_)
    clear hs
    induction shape with
    | nil => exact .nil
    | cons n ns ih =>
      exact .cons (hpos n List.mem_cons_self) (ih fun n hn => hpos n (List.mem_cons_of_mem _ hn))
  obtain ⟨o0, rest, rfl⟩ : ∃ o0 rest, offset = o0 :: rest := by
    cases offset with
    | nil => simp at ho; omega
    | cons o0 rest => exact ⟨o0, rest, rfl⟩
  obtain ⟨ms, hms⟩ : ∃ ms, (productRanges shape).mapM (fun ix =>
      affineMapMesh ⟨none, some (gridShift o0 (o0 :: rest) ix)⟩ m) = some ms := by
    generalize productRanges shape = L
    induction L with
    | nil => exact ⟨[], rfl⟩
    | cons a L ih =>
      obtain ⟨ms, hms⟩ := ih
      obtain ⟨m', hm', _⟩ := hmap (gridShift o0 (o0 :: rest) a)
      exact ⟨m' :: ms, by rw [List.mapM_cons, hm', hms]; rfl⟩
  have hdim : ms.map FMesh.ambientDim = (productRanges shape).map fun _ => m.ambientDim :=
    mapM_some_map hms fun a b hab => by
      obtain ⟨m', hm', h, _⟩ := hmap (gridShift o0 (o0 :: rest) a)
      rw [hab, Option.some.injEq] at hm'
      rw [hm', h]
  have hvert : ms.map (fun x => x.vertices.isSome) = (productRanges shape).map fun _ => true :=
    mapM_some_map hms fun a b hab => by
      obtain ⟨m', hm', _, h⟩ := hmap (gridShift o0 (o0 :: rest) a)
      rw [hab, Option.some.injEq] at hm'
      rw [hm', h]
  have hd1 : ∀ x ∈ ms, x.ambientDim = m.ambientDim := by
    intro x hx
    have : x.ambientDim ∈ ms.map FMesh.ambientDim := List.mem_map_of_mem hx
    rw [hdim, List.mem_map] at this
    obtain ⟨_, _, h⟩ := this
    exact h.symm
  have hv1 : ∀ x ∈ ms, x.vertices.isSome := by
    intro x hx
    have : x.vertices.isSome ∈ ms.map (fun x => x.vertices.isSome) := List.mem_map_of_mem hx
    rw [hvert, List.mem_map] at this
    obtain ⟨_, _, h⟩ := this
    exact h.symm
  obtain ⟨vss, hvss⟩ : ∃ vss, ms.mapM FMesh.vertices = some vss := by
    clear hms hdim hvert hd1
    induction ms with
    | nil => exact ⟨[], rfl⟩
    | cons x ms ih =>
      obtain ⟨vss, h⟩ := ih fun y hy => hv1 y (List.mem_cons_of_mem _ hy)
      obtain ⟨v, hx⟩ := Option.isSome_iff_exists.1 (hv1 x List.mem_cons_self)
      exact ⟨v :: vss, by rw [List.mapM_cons, hx, h]; rfl⟩
  have hlen : ms.length = (productRanges shape).length := by
    have := congrArg List.length hdim
    simpa using this
  have hmerge : ∃ M, mergeDisjoint ms false = .ok M := by
    cases ms with
    | nil =>
      have := List.length_eq_zero_iff.1 hlen.symm
      exact absurd this hne
    | cons x ms =>
      unfold mergeDisjoint
      have hany : (ms.any fun y => y.ambientDim != x.ambientDim) = false := by
        rw [List.any_eq_false]
        intro y hy
        simp [hd1 y (List.mem_cons_of_mem _ hy), hd1 x List.mem_cons_self]
      simp only [hany, hvss, Bool.false_eq_true, if_false]
      exact ⟨_, rfl⟩
  obtain ⟨M, hM⟩ := hmerge
  refine ⟨M, ?_⟩
  unfold makeMeshGrid
  rw [if_neg (by simp [hs]), if_neg (by simp [ho])]
  simp only [List.head?_cons]
  rw [hms]
  simp only
  rw [hM]

/-- One segment from 0 to 1. -/
def exSegment : PMesh 1 ℚ :=
  ⟨1, some [![0], ![1]], [⟨0, [[0], [1]], [[0, 1]], [[![0], ![1]]]⟩], ⟨some true, .missing, .missing⟩⟩

example : ∃ M, makeMeshGrid [3] [![5]] exSegment = .ok M :=
  C50_defined (vs := [![0], ![1]]) rfl (by decide) rfl rfl (by simp) (by simp [exSegment])

/-- C50 fails as stated: the copy with multi-index 0 is not the original mesh but the mesh moved by
`offset[0]`. -/
theorem C50_shifted_counterexample :
    ∃ M, makeMeshGrid [1] [![5]] exSegment = .ok M ∧ gridPlace [![(5 : ℚ)]] [0] = 0 ∧
      M.vertices = some [![5], ![6]] := by
  obtain ⟨M, hM⟩ : ∃ M, makeMeshGrid [1] [![5]] exSegment = .ok M :=
    C50_defined (vs := [![0], ![1]]) rfl (by decide) rfl rfl (by simp) (by simp [exSegment])
  refine ⟨M, hM, by simp [gridPlace], ?_⟩
  obtain ⟨o0, ho, hv, _⟩ := C50_grid_partial (vs := [![0], ![1]]) rfl hM
  simp only [List.head?_cons, Option.some.injEq] at ho
  subst ho
  rw [hv]
  simp [productRanges, gridPlace]
  norm_num

/-- C50: with the default offsets, copy `ix` is `ix[j]` times five quarters of the mesh's extent away
along each axis `j`. -/
theorem C50_default_place (size : Fin d → K) (ix : Fin d → Nat) (j : Fin d) :
    gridPlace (defaultOffset size) (List.ofFn ix) j = (ix j : K) * (size j + size j / 4) := by
  have hz : ((List.ofFn ix).zip (defaultOffset size)).map (fun p => (p.1 : K) • p.2) =
      List.ofFn fun i : Fin d =>
        (ix i : K) • fun j : Fin d => (if j = i then (1 : K) else 0) * (size i + size i / 4) := by
    apply List.ext_getElem
    · simp [defaultOffset]
    · intro n h1 h2
      simp [defaultOffset]
  unfold gridPlace
  rw [hz, List.sum_ofFn, Finset.sum_apply]
  rw [Finset.sum_eq_single j]
  · simp
  · intro b _ hb
    simp [Ne.symm hb]
  · intro h
    exact absurd (Finset.mem_univ j) h

/-- C50: with the default offsets, distinct copies do not touch: if the mesh lies in a box of extent
`size`, then along some axis a gap of a quarter of the extent separates any point of one copy from
any point of another. -/
theorem C50_default_gap [LinearOrder K] [IsStrictOrderedRing K] (lo size : Fin d → K)
    (hsize : ∀ j, 0 < size j) (o0 : Fin d → K) (ix ix' : Fin d → Nat) (hne : ix ≠ ix')
    (x y : Fin d → K) (hx : ∀ j, lo j ≤ x j ∧ x j ≤ lo j + size j)
    (hy : ∀ j, lo j ≤ y j ∧ y j ≤ lo j + size j) :
    ∃ j, size j / 4 ≤ |(x + gridShift o0 (defaultOffset size) (List.ofFn ix)) j -
      (y + gridShift o0 (defaultOffset size) (List.ofFn ix')) j| := by
  obtain ⟨j, hj⟩ := Function.ne_iff.1 hne
  refine ⟨j, ?_⟩
  have e : (x + gridShift o0 (defaultOffset size) (List.ofFn ix)) j -
      (y + gridShift o0 (defaultOffset size) (List.ofFn ix')) j =
      x j - y j + ((ix j : K) - ix' j) * (size j + size j / 4) := by
    have := congrFun (C50_relative o0 (defaultOffset size) (List.ofFn ix) (List.ofFn ix')) j
    simp only [Pi.sub_apply, C50_default_place] at this
    simp only [Pi.add_apply]
    linear_combination this
  rw [e]
  have hs := hsize j
  obtain ⟨hx1, hx2⟩ := hx j
  obtain ⟨hy1, hy2⟩ := hy j
  rcases Nat.lt_or_gt_of_ne hj with h | h
  · have h1 : (ix j : K) + 1 ≤ ix' j := by exact_mod_cast h
    have h2 : 0 ≤ ((ix' j : K) - ix j - 1) * (size j + size j / 4) :=
      mul_nonneg (by linarith) (by linarith)
    rw [le_abs]
    right
    linarith
  · have h1 : (ix' j : K) + 1 ≤ ix j := by exact_mod_cast h
    have h2 : 0 ≤ ((ix j : K) - ix' j - 1) * (size j + size j / 4) :=
      mul_nonneg (by linarith) (by linarith)
    rw [le_abs]
    left
    linarith

/-- Two neighbouring copies of the unit square. -/
example (u v : Fin 2 → ℚ) (hu : u = ![1, 0]) (hv : v = ![0, 0]) :
    ∃ j : Fin 2, (fun _ => 1 : Fin 2 → ℚ) j / 4 ≤
      |(u + gridShift ![5 / 4, 0] (defaultOffset fun _ => 1)
          (List.ofFn ![0, 1]) : Fin 2 → ℚ) j -
        (v + gridShift ![5 / 4, 0] (defaultOffset fun _ => 1)
          (List.ofFn ![1, 1]) : Fin 2 → ℚ) j| := by
  refine C50_default_gap (fun _ => 0) (fun _ => 1) (by simp) _ _ _ ?_ _ _ ?_ ?_
  · intro h; simpa using congrFun h 0
  · subst hu; intro j; fin_cases j <;> norm_num
  · subst hv; intro j; fin_cases j <;> norm_num

end Meshmode
