import Verif.Mesh.Glue
import Mathlib.LinearAlgebra.Matrix.NonsingularInverse
import Mathlib.LinearAlgebra.Matrix.ToLin
import Mathlib.Data.Rat.Init
import Mathlib.Algebra.Field.Rat
import Mathlib.Data.Matrix.Reflection
import Mathlib.Tactic.NormNum
import Mathlib.Tactic.FinCases

/-!
# Affine maps and mapping a mesh (C17, C18, C53)

`AffineMap` (meshmode/mesh/tools.py:138-228), `map_mesh` and `affine_map`
(meshmode/mesh/processing.py:1322-1480).  Floating point numbers are replaced by an arbitrary
field.
-/
namespace Meshmode

open Matrix

variable {d : Nat} {K : Type} [Field K]

/-- `AffineMap`, meshmode/mesh/tools.py:138-178, between spaces of equal dimension. -/
structure AffMap (d : Nat) (K : Type) where
  matrix : Option (Matrix (Fin d) (Fin d) K)
  offset : Option (Fin d → K)

/-- `AffineMap.__call__` on one point, meshmode/mesh/tools.py:196-208. -/
def AffMap.apply (m : AffMap d K) (x : Fin d → K) : Fin d → K :=
  let r := match m.matrix with
    | some G => G *ᵥ x
    | none => x
  match m.offset with
  | some h => r + h
  | none => r

/-- `AffineMap.inverted`, meshmode/mesh/tools.py:180-194; `none` when `la.inv` raises
`LinAlgError`. -/
noncomputable def AffMap.inverted [DecidableEq K] (m : AffMap d K) : Option (AffMap d K) :=
  match m.matrix with
  | some G => if G.det = 0 then none else some ⟨some G⁻¹, m.offset.map fun h => (-G⁻¹) *ᵥ h⟩
  | none => some ⟨none, m.offset.map fun h => -h⟩

/-- What `==` gives in `component_equal` (meshmode/mesh/tools.py:215-219): a Boolean, or, when an
array is compared with `None`, numpy's elementwise result, `n` times `False`. -/
inductive CmpVal where
  | bool (b : Bool) | falses (n : Nat)
  deriving DecidableEq, Repr

/-- Truth value of the result; an array with other than one entry raises `ValueError`.
Code: meshmode/mesh/tools.py:138-223. -/
def CmpVal.truth : CmpVal → Option Bool
  | .bool b => some b
  | .falses n => if n = 1 then some false else none

/-- `component_equal`, meshmode/mesh/tools.py:215-219; `n` is the number of entries of an array. -/
def componentEqual {α : Type} [DecidableEq α] (n : Nat) : Option α → Option α → CmpVal
  | some a, some b => .bool (decide (a = b))
  | none, none => .bool true
  | _, _ => .falses n

/-- `AffineMap.__eq__`, meshmode/mesh/tools.py:210-223, evaluated as a condition; `none` if that
raises. -/
def AffMap.eq? [DecidableEq K] (m m' : AffMap d K) : Option Bool :=
  match (componentEqual (d * d) m.matrix m'.matrix).truth with
  | none => none
  | some false => some false
  | some true => (componentEqual d m.offset m'.offset).truth

/-- `compute_new_map`, meshmode/mesh/processing.py:1423-1438; `f` has the matrix `A` and offset `b`
of the map applied to the mesh. -/
def computeNewMap (f old : AffMap d K) : AffMap d K where
  matrix := old.matrix
  offset := old.offset.map fun h =>
    let o := match f.matrix with
      | some A => A *ᵥ h
      | none => h
    match old.matrix, f.offset with
    | some G, some b => o + (b - G *ᵥ b)
    | _, _ => o

/-- Change the affine maps of adjacency groups and nothing else,
meshmode/mesh/processing.py:1440-1455. -/
def Fag.mapAff {A B : Type} (c : A → B) : Fag A → Fag B
  | .interior i j rows a => .interior i j rows (c a)
  | .boundary i t fs => .boundary i t fs
  | .interPart i t p rows a => .interPart i t p rows (c a)

/-- Mesh with points in `K^d`: the nodes of one element are a list of points.
Code: meshmode/mesh/__init__.py:1135-1260. -/
abbrev PMesh (d : Nat) (K : Type) := FMesh (List (Fin d → K)) (Fin d → K) (AffMap d K)

/-- Apply `f` to all vertices and nodes, meshmode/mesh/processing.py:1341-1359, 1394-1413. -/
def mapGeometry (f : (Fin d → K) → (Fin d → K)) (m : PMesh d K) : PMesh d K :=
  { m with
    vertices := m.vertices.map (·.map f)
    groups := m.groups.map fun g => { g with nodes := g.nodes.map (·.map f) } }

/-- `affine_map` after scalars were promoted, meshmode/mesh/processing.py:1372-1480; `none` when it
raises (`DataUnavailableError` from reading disabled facial adjacency).  The shape checks on `A`
and `b` are in the types. -/
def affineMapMesh (f : AffMap d K) (m : PMesh d K) : Option (PMesh d K) :=
  match f.matrix, f.offset with
  | none, none => some m
  | _, _ =>
    let m' := mapGeometry f.apply m
    match m.lazy.facial with
    | .missing => some m'
    | .disabled => none
    | .data fags => some { m' with lazy := { m'.lazy with
        facial := .data (fags.map (·.map (Fag.mapAff (computeNewMap f)))) } }

/-- The affine map of an adjacency group, if it has one.
Code: meshmode/mesh/processing.py:1440-1465. -/
def Fag.aff? {A : Type} : Fag A → Option A
  | .interior _ _ _ a => some a
  | .boundary .. => none
  | .interPart _ _ _ _ a => some a

/-- Errors of `map_mesh`. Code: meshmode/mesh/processing.py:1336-1391. -/
inductive MapErr where
  | unavailable | hasAdjMaps
  deriving DecidableEq, Repr

/-- `map_mesh`, meshmode/mesh/processing.py:1322-1364. -/
def mapMesh (f : (Fin d → K) → (Fin d → K)) (m : PMesh d K) : Except MapErr (PMesh d K) :=
  match m.lazy.facial with
  | .missing => .ok (mapGeometry f m)
  | .disabled => .error .unavailable
  | .data fags =>
      if fags.any fun l => l.any fun fg =>
        match fg.aff? with
        | none => false
        | some a => a.matrix.isSome || a.offset.isSome
      then .error .hasAdjMaps
      else .ok (mapGeometry f m)

/-! ## C18 -/

/-- C18: a missing matrix acts as the identity, a missing offset as zero. -/
theorem C18_missing_parts (m : AffMap d K) (x : Fin d → K) :
    m.apply x = (m.matrix.getD 1) *ᵥ x + m.offset.getD 0 := by
  obtain ⟨G, h⟩ := m
  cases G <;> cases h <;> simp [AffMap.apply]

/-- C18: the inverse, when there is one, undoes the map on both sides. -/
theorem C18_inverted_undoes [DecidableEq K] {m m' : AffMap d K} (h : m.inverted = some m')
    (x : Fin d → K) : m'.apply (m.apply x) = x ∧ m.apply (m'.apply x) = x := by
  obtain ⟨G, o⟩ := m
  cases G with
  | none =>
    simp only [AffMap.inverted, Option.some.injEq] at h
    subst h
    cases o <;> simp [AffMap.apply]
  | some G =>
    simp only [AffMap.inverted] at h
    split at h
    · simp at h
    · rename_i hdet
      have hu : IsUnit G.det := isUnit_iff_ne_zero.2 hdet
      simp only [Option.some.injEq] at h
      subst h
      cases o with
      | none =>
        simp [AffMap.apply, Matrix.mulVec_mulVec, Matrix.nonsing_inv_mul _ hu,
          Matrix.mul_nonsing_inv _ hu]
      | some o =>
        simp [AffMap.apply, Matrix.mulVec_add, Matrix.mulVec_mulVec, Matrix.nonsing_inv_mul _ hu,
          Matrix.mul_nonsing_inv _ hu, Matrix.neg_mulVec, Matrix.mulVec_neg]

/-- C18: `inverted()` succeeds for every map that can be undone. -/
theorem C18_inverted_defined [DecidableEq K] (m : AffMap d K) :
    (∃ m', m.inverted = some m') ↔ Function.Injective m.apply := by
  constructor
  · rintro ⟨m', h⟩
    exact Function.LeftInverse.injective fun x => (C18_inverted_undoes h x).1
  · intro hinj
    obtain ⟨G, o⟩ := m
    cases G with
    | none => exact ⟨_, rfl⟩
    | some G =>
      have hG : Function.Injective G.mulVec := by
        intro x y hxy
        apply hinj
        simp only [AffMap.apply]
        have : G *ᵥ x = G *ᵥ y := hxy
        rw [this]
      have hu : IsUnit G := Matrix.mulVec_injective_iff_isUnit.1 hG
      have hdet : G.det ≠ 0 := ((Matrix.isUnit_iff_isUnit_det G).1 hu).ne_zero
      simp [AffMap.inverted, hdet]

omit [Field K] in
/-- C18: maps with the same parts present compare equal exactly when the parts are equal. -/
theorem C18_eq_structural_partial [DecidableEq K] {m m' : AffMap d K}
    (h1 : m.matrix.isSome = m'.matrix.isSome) (h2 : m.offset.isSome = m'.offset.isSome) :
    ∃ b, m.eq? m' = some b ∧ (b = true ↔ m = m') := by
  obtain ⟨G, o⟩ := m
  obtain ⟨G', o'⟩ := m'
  cases G with
  | none =>
    cases G' with
    | some _ => simp at h1
    | none =>
      cases o <;> cases o' <;> simp_all [AffMap.eq?, componentEqual, CmpVal.truth]
  | some G =>
    cases G' with
    | none => simp at h1
    | some G' =>
      by_cases hG : G = G'
      · cases o <;> cases o' <;> simp_all [AffMap.eq?, componentEqual, CmpVal.truth]
      · cases o <;> cases o' <;> simp_all [AffMap.eq?, componentEqual, CmpVal.truth]

/-- C18 fails for equality: from dimension two, comparing a translation with the identity map
raises instead of answering. -/
theorem C18_eq_raises_counterexample :
    (⟨none, some ![1, 0]⟩ : AffMap 2 ℚ).eq? ⟨none, none⟩ = none ∧
    (⟨some 1, none⟩ : AffMap 2 ℚ).eq? ⟨none, none⟩ = none := ⟨rfl, rfl⟩

/-- A concrete invertible map: shear and translation. -/
example : (⟨some !![1, 2; 0, 1], some ![3, 4]⟩ : AffMap 2 ℚ).apply ![1, 1] = ![6, 5] ∧
    ∃ m', (⟨some !![1, 2; 0, 1], some ![3, 4]⟩ : AffMap 2 ℚ).inverted = some m' := by
  constructor
  · ext i; fin_cases i <;>
      norm_num [AffMap.apply, Matrix.mulVec, dotProduct, Matrix.vecHead, Matrix.vecTail]
  · simp [AffMap.inverted, Matrix.det_fin_two]

/-! ## C17 -/

/-- The condition under which `compute_new_map` is right: the linear parts commute, and, if the
adjacency map has a matrix `G` but no offset, the translation is fixed by `G`.
(Specification or proof vocabulary, no code.) -/
def AffMap.Transports (f old : AffMap d K) : Prop :=
  f.matrix.getD 1 * old.matrix.getD 1 = old.matrix.getD 1 * f.matrix.getD 1 ∧
  (old.offset = none → old.matrix.getD 1 *ᵥ f.offset.getD 0 = f.offset.getD 0)

theorem computeNewMap_parts (f old : AffMap d K) :
    (computeNewMap f old).matrix.getD 1 = old.matrix.getD 1 ∧
    (old.offset ≠ none → (computeNewMap f old).offset.getD 0 =
      f.matrix.getD 1 *ᵥ old.offset.getD 0 +
        (f.offset.getD 0 - old.matrix.getD 1 *ᵥ f.offset.getD 0)) ∧
    (old.offset = none → (computeNewMap f old).offset = none) := by
  obtain ⟨A, b⟩ := f
  obtain ⟨G, h⟩ := old
  refine ⟨rfl, ?_, ?_⟩
  · intro hh
    cases h with
    | none => exact absurd rfl hh
    | some h => cases A <;> cases b <;> cases G <;> simp [computeNewMap]
  · rintro rfl
    rfl

/-- C17: the new adjacency map sends the image of each point to the image of its partner point if
and only if the linear parts commute and a matrix without offset fixes the translation. -/
theorem C17_transport_iff_partial (f old : AffMap d K) :
    (∀ x, (computeNewMap f old).apply (f.apply x) = f.apply (old.apply x)) ↔
      f.Transports old := by
  obtain ⟨p1, p2, p3⟩ := computeNewMap_parts f old
  simp only [C18_missing_parts, p1]
  unfold AffMap.Transports
  generalize hA : f.matrix.getD 1 = A
  generalize hb : f.offset.getD 0 = b
  generalize hG : old.matrix.getD 1 = G
  rw [hA, hb, hG] at p2
  by_cases ho : old.offset = none
  · rw [p3 ho, ho]
    simp only [Option.getD_none, add_zero, Matrix.mulVec_add, Matrix.mulVec_mulVec, true_imp_iff]
    constructor
    · intro h
      have h0 := h 0
      simp only [Matrix.mulVec_zero, zero_add] at h0
      refine ⟨?_, h0⟩
      apply Matrix.mulVec_injective
      funext x
      have := h x
      rw [h0] at this
      exact (add_right_cancel this).symm
    · rintro ⟨h1, h2⟩ x
      rw [h1, h2]
  · rw [p2 ho]
    simp only [ho, false_imp_iff, and_true, Matrix.mulVec_add, Matrix.mulVec_mulVec]
    constructor
    · intro h
      apply Matrix.mulVec_injective
      funext x
      have := h x
      have e : (G * A) *ᵥ x + G *ᵥ b + (A *ᵥ old.offset.getD 0 + (b - G *ᵥ b)) =
          (G * A) *ᵥ x + A *ᵥ old.offset.getD 0 + b := by abel
      rw [e] at this
      exact (add_right_cancel (add_right_cancel this)).symm
    · intro h x
      rw [h]
      abel

/-- C17 for the periodic meshes meshmode itself generates: translations are always transported, by
every affine map. -/
theorem C17_translations_transported_partial (f : AffMap d K) (h : Option (Fin d → K))
    (x : Fin d → K) :
    (computeNewMap f ⟨none, h⟩).apply (f.apply x) = f.apply (AffMap.apply ⟨none, h⟩ x) := by
  refine (C17_transport_iff_partial f ⟨none, h⟩).2 ⟨?_, ?_⟩ x
  · simp
  · simp

/-- C17: scaling and shifting by a scalar also transports rotations that have an offset. -/
theorem C17_scaling_transported_partial (s : K) (b : Option (Fin d → K))
    (G : Matrix (Fin d) (Fin d) K) (h x : Fin d → K) :
    (computeNewMap ⟨some (Matrix.diagonal fun _ => s), b⟩ ⟨some G, some h⟩).apply
      (AffMap.apply ⟨some (Matrix.diagonal fun _ => s), b⟩ x) =
    AffMap.apply ⟨some (Matrix.diagonal fun _ => s), b⟩ (AffMap.apply ⟨some G, some h⟩ x) := by
  refine (C17_transport_iff_partial _ _).2 ⟨?_, by simp⟩ x
  simp only [Option.getD_some]
  ext i j
  simp [Matrix.diagonal_mul, Matrix.mul_diagonal, mul_comm]

/-- C17 as a whole fails: a quarter turn as adjacency map is not transported by a stretch of one
axis, nor, when it has no offset, by a translation. -/
theorem C17_not_transported_counterexample :
    (∃ x, (computeNewMap ⟨some !![1, 0; 0, 2], none⟩ ⟨some !![0, -1; 1, 0], some 0⟩).apply
        (AffMap.apply (⟨some !![1, 0; 0, 2], none⟩ : AffMap 2 ℚ) x) ≠
      AffMap.apply ⟨some !![1, 0; 0, 2], none⟩ (AffMap.apply ⟨some !![0, -1; 1, 0], some 0⟩ x)) ∧
    (∃ x, (computeNewMap ⟨none, some ![1, 0]⟩ ⟨some !![0, -1; 1, 0], none⟩).apply
        (AffMap.apply (⟨none, some ![1, 0]⟩ : AffMap 2 ℚ) x) ≠
      AffMap.apply ⟨none, some ![1, 0]⟩ (AffMap.apply ⟨some !![0, -1; 1, 0], none⟩ x)) := by
  constructor
  · refine ⟨![1, 0], fun h => ?_⟩
    have := congrFun h 1
    norm_num [computeNewMap, AffMap.apply, Matrix.mulVec, dotProduct, Fin.sum_univ_succ] at this
  · refine ⟨![0, 0], fun h => ?_⟩
    have := congrFun h 0
    norm_num [computeNewMap, AffMap.apply, Matrix.mulVec, dotProduct, Fin.sum_univ_succ] at this

/-- C17, mesh level: `affine_map` maps every vertex and node, keeps all connectivity, and the
adjacency maps of the result are those of `compute_new_map`, row by row. -/
theorem C17_affine_map_mesh_partial {f : AffMap d K} {m m' : PMesh d K}
    (h : affineMapMesh f m = some m') :
    m'.vertices = m.vertices.map (·.map f.apply) ∧
    m'.groups.length = m.groups.length ∧
    (∀ (i : Nat) g, m.groups[i]? = some g → ∃ g', m'.groups[i]? = some g' ∧ g'.kind = g.kind ∧
      g'.fvi = g.fvi ∧ g'.vertexIndices = g.vertexIndices ∧
      g'.nodes = g.nodes.map (·.map f.apply)) ∧
    (m.lazy.facial = .missing → m'.lazy.facial = .missing) ∧
    (∀ fags, m.lazy.facial = .data fags → ∃ fags', m'.lazy.facial = .data fags' ∧
      (f.matrix ≠ none ∨ f.offset ≠ none →
        interiorTriples fags' = (interiorTriples fags).map fun t =>
          (t.1, t.2.1, computeNewMap f t.2.2)) ∧
      ∀ g, bdryGroupsOf fags' g = bdryGroupsOf fags g) := by
  have hid : f.matrix = none → f.offset = none → f.apply = id := by
    intro h1 h2; funext x; simp [AffMap.apply, h1, h2]
  have hgeo : ∀ (m' : PMesh d K), m'.groups = (mapGeometry f.apply m).groups →
      m'.groups.length = m.groups.length ∧
      (∀ (i : Nat) g, m.groups[i]? = some g → ∃ g', m'.groups[i]? = some g' ∧ g'.kind = g.kind ∧
        g'.fvi = g.fvi ∧ g'.vertexIndices = g.vertexIndices ∧
        g'.nodes = g.nodes.map (·.map f.apply)) := by
    intro m' he
    rw [he]
    refine ⟨by simp [mapGeometry], fun i g hg => ?_⟩
    refine ⟨⟨g.kind, g.fvi, g.vertexIndices, g.nodes.map (·.map f.apply)⟩, ?_, rfl, rfl, rfl, rfl⟩
    simp [mapGeometry, hg]
  unfold affineMapMesh at h
  split at h
  · rename_i h1 h2
    simp only [Option.some.injEq] at h
    subst h
    rw [hid h1 h2]
    refine ⟨by simp, rfl, fun i g hg => ⟨g, hg, rfl, rfl, rfl, by simp⟩, fun h => h,
      fun fags hf => ⟨fags, hf, ?_, fun _ => rfl⟩⟩
    rw [h1, h2]
    simp
  · simp only at h
    split at h
    · rename_i hf
      simp only [Option.some.injEq] at h
      subst h
      obtain ⟨g1, g2⟩ := hgeo _ rfl
      exact ⟨rfl, g1, g2, fun h => h, fun fags hf' => by rw [hf] at hf'; simp at hf'⟩
    · simp at h
    · rename_i fags hf
      simp only [Option.some.injEq] at h
      subst h
      obtain ⟨g1, g2⟩ := hgeo { mapGeometry f.apply m with lazy := { (mapGeometry f.apply m).lazy with
        facial := .data (fags.map (·.map (Fag.mapAff (computeNewMap f)))) } } rfl
      refine ⟨rfl, g1, g2, fun h => by rw [hf] at h; simp at h, fun fags' hf' => ?_⟩
      rw [hf] at hf'
      simp only [Slot.data.injEq] at hf'
      subst hf'
      refine ⟨_, rfl, fun _ => ?_, fun g => ?_⟩
      · rw [interiorTriples_eq, interiorTriples_eq, List.zipIdx_map, List.flatMap_map,
          List.map_flatMap]
        congr 1
        funext p
        simp only [Prod.map_fst, Prod.map_snd, id, List.flatMap_map, List.map_flatMap]
        congr 1
        funext fg
        cases fg <;> simp [Fag.mapAff, fagTriples]
      · unfold bdryGroupsOf
        rw [List.getElem?_map]
        cases hg : fags[g]? with
        | none => simp
        | some fl =>
          simp only [Option.map_some, Option.getD_some, List.filterMap_map]
          apply List.filterMap_congr
          intro fg _
          cases fg <;> rfl

/-- `affine_map` needs facial adjacency not to be disabled: otherwise it raises, although the mesh
has no adjacency maps to change. -/
theorem C17_disabled_adjacency_raises (f : AffMap d K) (m : PMesh d K)
    (h : m.lazy.facial = .disabled) :
    affineMapMesh f m = none ↔ (f.matrix ≠ none ∨ f.offset ≠ none) := by
  unfold affineMapMesh
  obtain ⟨A, b⟩ := f
  cases A <;> cases b <;> simp [h]

/-! ## C53 -/

/-- The adjacency group has the affine map `a`. (Specification or proof vocabulary, no code.) -/
def Fag.HasAff {A : Type} (fg : Fag A) (a : A) : Prop :=
  (∃ i j rows, fg = .interior i j rows a) ∨ ∃ i t p rows, fg = .interPart i t p rows a

theorem Fag.aff?_iff {A : Type} {fg : Fag A} {a : A} : fg.aff? = some a ↔ fg.HasAff a := by
  cases fg <;> simp [Fag.aff?, Fag.HasAff, eq_comm]

omit [Field K] in
/-- C53: `map_mesh` applies the function to every vertex and node, changes nothing else, and
refuses exactly when facial adjacency is disabled or has an affine map. -/
theorem C53_map_mesh (f : (Fin d → K) → (Fin d → K)) (m : PMesh d K) :
    (∀ m', mapMesh f m = .ok m' → m'.vertices = m.vertices.map (·.map f) ∧
      m'.groups = m.groups.map (fun g => { g with nodes := g.nodes.map (·.map f) }) ∧
      m'.lazy = m.lazy) ∧
    (mapMesh f m = .error .hasAdjMaps ↔ ∃ fags, m.lazy.facial = .data fags ∧
      ∃ l ∈ fags, ∃ fg ∈ l, ∃ a, fg.HasAff a ∧ (a.matrix ≠ none ∨ a.offset ≠ none)) ∧
    (mapMesh f m = .error .unavailable ↔ m.lazy.facial = .disabled) := by
  unfold mapMesh
  cases hf : m.lazy.facial with
  | missing =>
    refine ⟨?_, by simp, by simp⟩
    rintro m' h
    cases h
    exact ⟨rfl, rfl, rfl⟩
  | disabled => simp
  | data fags =>
    simp only [Slot.data.injEq, exists_eq_left', reduceCtorEq, iff_false]
    split
    · rename_i hany
      refine ⟨by simp, ?_, by simp⟩
      simp only [true_iff]
      simp only [List.any_eq_true] at hany
      obtain ⟨l, hl, fg, hfg, h⟩ := hany
      refine ⟨l, hl, fg, hfg, ?_⟩
      cases ha : fg.aff? with
      | none => simp [ha] at h
      | some a =>
        refine ⟨a, Fag.aff?_iff.1 ha, ?_⟩
        simpa [ha, Option.isSome_iff_ne_none] using h
    · rename_i hany
      refine ⟨?_, ?_, by simp⟩
      · rintro m' h
        cases h
        exact ⟨rfl, rfl, rfl⟩
      · simp only [reduceCtorEq, false_iff]
        rintro ⟨l, hl, fg, hfg, a, ha, h⟩
        rw [← Fag.aff?_iff] at ha
        apply hany
        simp only [List.any_eq_true]
        refine ⟨l, hl, fg, hfg, ?_⟩
        simpa [ha, Option.isSome_iff_ne_none] using h

/-- A periodic line, as a concrete case for C17 and C53. -/
def exPeriodic : PMesh 1 ℚ where
  ambientDim := 1
  vertices := some [![0], ![1], ![2]]
  groups := [⟨0, [[0], [1]], [[0, 1], [1, 2]], [[![0], ![1]], [![1], ![2]]]⟩]
  lazy := ⟨some true, .missing, .data [[.interior 0 0 [⟨0, 1, 1, 0⟩, ⟨1, 0, 0, 1⟩] ⟨none, none⟩,
    .interior 0 0 [⟨0, 0, 1, 1⟩] ⟨none, some ![2]⟩,
    .interior 0 0 [⟨1, 1, 0, 0⟩] ⟨none, some ![-2]⟩]]⟩

example : (∃ m', affineMapMesh ⟨some !![3], some ![1]⟩ exPeriodic = some m') ∧
    mapMesh (fun x => x) exPeriodic = .error .hasAdjMaps ∧
    (∃ m', mapMesh (fun x => x) { exPeriodic with lazy := ⟨some true, .missing, .missing⟩ } =
      .ok m') :=
  ⟨⟨_, rfl⟩, rfl, ⟨_, rfl⟩⟩

end Meshmode
